import Verif.Model.Decorators
/-!
# C178: decorators may be written in any order
-/
namespace Slash.Deco
open Slash.Tag (Tags)

/-! ## What the decorators say, whatever their order -/

/-- The parameters declared. -/
def decls (ds : List Deco) : List (Nat × List Nat) := ds.filterMap (fun | .parametrize n vs => some (n, vs) | _ => none)
/-- The requirements, from the lowest on. -/
def reqsIn (ds : List Deco) : List Nat := ds.filterMap (fun | .requires r => some r | _ => none)
/-- The exclusions, from the lowest on. -/
def exclIn (ds : List Deco) : List Nat := ds.filterMap (fun | .exclude x => some x | _ => none)
/-- The numbers of repetitions. -/
def repsIn (ds : List Deco) : List Nat := ds.filterMap (fun | .repeat n => some n | _ => none)
/-- The fixtures used. -/
def extraIn (ds : List Deco) : List Nat := ds.flatMap (fun | .useFixtures l => l | _ => [])
/-- The decorators of the user, the lowest first. -/
def usersIn (ds : List Deco) : List Nat := ds.filterMap (fun | .user d => some d | _ => none)
/-- What is said about the fixture. -/
def fixesIn (ds : List Deco) : List (Option Nat × Nat × Bool) := ds.filterMap (fun | .fixture n s a => some (n, s, a) | _ => none)

/-- Nothing is said twice: no parameter is declared twice, no tag gets two values, and there is at most one number of repetitions and one
declaration as a fixture. -/
structure Once (ds : List Deco) : Prop where
  params : ((decls ds).map (·.1)).Nodup
  tags : ∀ n v w, .tag n v ∈ ds → .tag n w ∈ ds → v = w
  reps : (repsIn ds).length ≤ 1
  fixes : (fixesIn ds).length ≤ 1

/-- The first decorator of the user's, parametrization or declaration as a fixture. -/
def kindOf : Deco → Option Bool
  | .user _ => some false
  | .parametrize _ _ => some true
  | .fixture _ _ _ => some true
  | _ => none

/-- The lowest of the decorators of users, parametrizations and declarations as a fixture is none of a user. -/
def direct (ds : List Deco) : Bool := (ds.findSome? kindOf).getD true

/-! ## Following functions to the inner ones -/

/-- Links from function to function. -/
inductive Path (link : Nat → Option Nat) : Nat → Nat → Nat → Prop
  | here {u : Nat} (h : link u = none) : Path link u u 0
  | there {f g u k : Nat} (h : link f = some g) (hl : g < f) (p : Path link g u k) : Path link f u (k + 1)

theorem Path.short {link : Nat → Option Nat} {f u k : Nat} (p : Path link f u k) : k ≤ f := by
  induction p with
  | here => omega
  | there h hl p ih => omega

theorem Path.congr {link link' : Nat → Option Nat} {f u k : Nat} (p : Path link f u k) (h : ∀ i, i ≤ f → link' i = link i) : Path link' f u k := by
  induction p with
  | here hu => exact .here (by rw [h _ (Nat.le_refl _)]; exact hu)
  | there hf hl p ih => exact .there (by rw [h _ (Nat.le_refl _)]; exact hf) hl (ih (fun i hi => h i (by omega)))

theorem bottom_path {st : St} {f u k : Nat} (p : Path (fun i => (st.fn i).inner) f u k) : ∀ n, k ≤ n → bottom st n f = u := by
  induction p with
  | here hu =>
    intro n _
    cases n with
    | zero => rfl
    | succ n => simp only [bottom, hu]
  | there hf hl p ih =>
    intro n hn
    cases n with
    | zero => omega
    | succ n => simp only [bottom, hf]; exact ih n (by omega)

theorem underlying_path {st : St} {f u k : Nat} (p : Path (fun i => (st.fn i).attrs.wraps) f u k) : ∀ n, k ≤ n → underlying st n f = u := by
  induction p with
  | here hu =>
    intro n _
    cases n with
    | zero => rfl
    | succ n => simp only [underlying, hu]
  | there hf hl p ih =>
    intro n hn
    cases n with
    | zero => omega
    | succ n => simp only [underlying, hf]; exact ih n (by omega)

/-- The functions around the innermost one, from outside. -/
inductive Shape (st : St) (b : Nat) : Nat → List Body → Prop
  | base (h : (st.fn b).inner = none) : Shape st b b []
  | around {f g : Nat} {l : List Body} (h : (st.fn f).inner = some g) (hl : g < f) (s : Shape st b g l) : Shape st b f ((st.fn f).body :: l)

theorem Shape.path {st : St} {b f : Nat} {l : List Body} (s : Shape st b f l) : Path (fun i => (st.fn i).inner) f b l.length := by
  induction s with
  | base h => exact .here h
  | around h hl s ih => exact .there h hl ih

theorem Shape.congr {st st' : St} {b f : Nat} {l : List Body} (s : Shape st b f l)
    (h : ∀ i, i ≤ f → (st'.fn i).inner = (st.fn i).inner ∧ (st'.fn i).body = (st.fn i).body) : Shape st' b f l := by
  induction s with
  | base hu => exact .base (by rw [(h _ (Nat.le_refl _)).1]; exact hu)
  | around hf hl s ih =>
    rw [← (h _ (Nat.le_refl _)).2]
    exact .around (by rw [(h _ (Nat.le_refl _)).1]; exact hf) hl (ih (fun i hi => h i (by omega)))

/-- The decorator of the user a function was made by. -/
def userOf : Body → Option Nat
  | .user d => some d
  | _ => none

/-- Where a function looks for the parameters it sets. -/
def paramOf : Body → Option Nat
  | .param r => some r
  | _ => none

/-! ## The invariant -/

/-- What holds of a function `f` made of a new function `b` by the decorators `ds`. -/
structure Inv (b name : Nat) (args : List Nat) (gen : Bool) (ds : List Deco) (st : St) (f : Nat) : Prop where
  hi : f < st.next
  low : b ≤ f
  fname : (st.fn f).name = name
  bargs : (st.fn b).args = args
  bbody : (st.fn b).body = .base gen
  shape : ∃ l, Shape st b f l ∧ l.filterMap userOf = (usersIn ds).reverse ∧ l.filterMap paramOf = (st.fn f).attrs.params.toList ∧
    l.count .yields = (if (gen && direct ds) = true ∧ fixesIn ds ≠ [] then 1 else 0) ∧ .base true ∉ l ∧ .base false ∉ l
  under : ∃ u k, Path (fun i => (st.fn i).attrs.wraps) f u k ∧ isGen (st.fn u).body = (gen && direct ds)
  wraps : (st.fn f).attrs.wraps = none ↔ decls ds = [] ∧ ((gen && direct ds) = true → fixesIn ds = [])
  params : (st.fn f).attrs.params = none ∧ decls ds = [] ∨ ∃ r, (st.fn f).attrs.params = some r ∧ r < st.next ∧ decls ds ≠ [] ∧
    st.pinfo r = { args := args, params := (decls ds).filter (fun e => args.contains e.1), extra := (decls ds).filter (fun e => !args.contains e.1) }
  tags : (st.fn f).attrs.tags = none ∧ (∀ n v, .tag n v ∉ ds) ∨ ∃ r, (st.fn f).attrs.tags = some r ∧ r < st.next ∧
    (∀ n v, (n, v) ∈ st.tags r ↔ .tag n v ∈ ds) ∧ ((st.tags r).map (·.1)).Nodup
  reqs : (st.fn b).attrs.reqs = none ∧ reqsIn ds = [] ∨ ∃ r, (st.fn b).attrs.reqs = some (b, r) ∧ r < st.next ∧ st.list r = reqsIn ds
  extra : (st.fn f).attrs.extra = none ∧ extraIn ds = [] ∨ ∃ r, (st.fn f).attrs.extra = some r ∧ r < st.next ∧ st.list r = extraIn ds
  apart : ∀ r q, (st.fn b).attrs.reqs = some (b, r) → (st.fn f).attrs.extra = some q → r ≠ q
  excl : (st.fn f).attrs.excl = exclIn ds
  rep : (st.fn f).attrs.rep = (repsIn ds).getLast?
  nofix : (st.fn f).attrs.nofix = ds.contains .nofixtures
  info : (st.fn f).attrs.info = (fixesIn ds).head?.map (fun x => ⟨x.1.getD name, x.2.1, x.2.2, args⟩)

theorem Inv.bottom {b name : Nat} {args : List Nat} {gen : Bool} {ds : List Deco} {st : St} {f : Nat} (h : Inv b name args gen ds st f) :
    bottom st st.next f = b := by
  obtain ⟨l, hl, -⟩ := h.shape
  have := hl.path.short
  have := h.hi
  exact bottom_path hl.path _ (by omega)

theorem Inv.argsOf {b name : Nat} {args : List Nat} {gen : Bool} {ds : List Deco} {st : St} {f : Nat} (h : Inv b name args gen ds st f) :
    argsOf st f = args := by
  unfold Deco.argsOf
  rw [h.bottom, h.bargs]

theorem Inv.isGen {b name : Nat} {args : List Nat} {gen : Bool} {ds : List Deco} {st : St} {f : Nat} (h : Inv b name args gen ds st f) :
    isGen (st.fn (underlying st st.next f)).body = (gen && direct ds) := by
  obtain ⟨u, k, hp, hu⟩ := h.under
  have := hp.short
  have := h.hi
  rw [underlying_path hp _ (by omega), hu]

theorem direct_snoc (ds : List Deco) (d : Deco) : direct (ds ++ [d]) = (match ds.findSome? kindOf with | some x => x | none => (kindOf d).getD true) := by
  unfold direct
  rw [List.findSome?_append]
  cases ds.findSome? kindOf with
  | some x => rfl
  | none =>
    simp only [Option.none_or]
    cases h : kindOf d <;> simp [List.findSome?, h]

theorem direct_same {ds : List Deco} {d : Deco} (h : kindOf d ≠ some false) : direct (ds ++ [d]) = direct ds := by
  rw [direct_snoc]
  unfold direct
  cases ds.findSome? kindOf with
  | some x => rfl
  | none =>
    rcases hk : kindOf d with _ | (_ | _)
    · rfl
    · exact absurd hk h
    · rfl

/-- What is found for a function depends on the decorators in these ways only. -/
def plain : Deco → Bool
  | .parametrize _ _ => false
  | .fixture _ _ _ => false
  | .user _ => false
  | _ => true

theorem plain_same {ds : List Deco} {d : Deco} (h : plain d = true) :
    decls (ds ++ [d]) = decls ds ∧ usersIn (ds ++ [d]) = usersIn ds ∧ fixesIn (ds ++ [d]) = fixesIn ds ∧ direct (ds ++ [d]) = direct ds := by
  refine ⟨?_, ?_, ?_, direct_same ?_⟩
  · cases d <;> first | (simp [plain] at h; done) | (simp [decls]; done)
  · cases d <;> first | (simp [plain] at h; done) | (simp [usersIn]; done)
  · cases d <;> first | (simp [plain] at h; done) | (simp [fixesIn]; done)
  · cases d <;> first | (simp [plain] at h; done) | (simp [kindOf]; done)

/-- A function stays where it is. -/
def Kept (st st' : St) : Prop :=
  ∀ i, i < st.next → (st'.fn i).inner = (st.fn i).inner ∧ (st'.fn i).body = (st.fn i).body ∧ (st'.fn i).name = (st.fn i).name ∧
    (st'.fn i).args = (st.fn i).args ∧ (st'.fn i).attrs.wraps = (st.fn i).attrs.wraps

theorem Path.last {link : Nat → Option Nat} {f u k : Nat} (p : Path link f u k) : u ≤ f := by
  induction p with
  | here => omega
  | there h hl p ih => omega

theorem kept_setAttrs {st : St} {f : Nat} {a : Attrs} (h : a.wraps = (st.fn f).attrs.wraps) : Kept st (st.setAttrs f a) := by
  intro i _
  by_cases hi : i = f
  · subst hi
    simp [St.setAttrs, put, h]
  · simp [St.setAttrs, put, hi]

theorem shape_kept {st st' : St} {b f : Nat} {l : List Body} (hk : Kept st st') (hf : f < st.next) (h : Shape st b f l) : Shape st' b f l :=
  h.congr (fun i hi => ⟨(hk i (by omega)).1, (hk i (by omega)).2.1⟩)

theorem Inv.update {b name : Nat} {args : List Nat} {gen : Bool} {ds : List Deco} {st st' : St} {f : Nat} {d : Deco} (h : Inv b name args gen ds st f)
    (hd : plain d = true) (hn : st.next ≤ st'.next) (hk : Kept st st') (hp : st'.pinfo = st.pinfo)
    (hpa : (st'.fn f).attrs.params = (st.fn f).attrs.params)
    (tags : (st'.fn f).attrs.tags = none ∧ (∀ n v, .tag n v ∉ ds ++ [d]) ∨ ∃ r, (st'.fn f).attrs.tags = some r ∧ r < st'.next ∧
      (∀ n v, (n, v) ∈ st'.tags r ↔ .tag n v ∈ ds ++ [d]) ∧ ((st'.tags r).map (·.1)).Nodup)
    (reqs : (st'.fn b).attrs.reqs = none ∧ reqsIn (ds ++ [d]) = [] ∨ ∃ r, (st'.fn b).attrs.reqs = some (b, r) ∧ r < st'.next ∧ st'.list r = reqsIn (ds ++ [d]))
    (extra : (st'.fn f).attrs.extra = none ∧ extraIn (ds ++ [d]) = [] ∨ ∃ r, (st'.fn f).attrs.extra = some r ∧ r < st'.next ∧ st'.list r = extraIn (ds ++ [d]))
    (apart : ∀ r q, (st'.fn b).attrs.reqs = some (b, r) → (st'.fn f).attrs.extra = some q → r ≠ q)
    (excl : (st'.fn f).attrs.excl = exclIn (ds ++ [d])) (rep : (st'.fn f).attrs.rep = (repsIn (ds ++ [d])).getLast?)
    (nofix : (st'.fn f).attrs.nofix = (ds ++ [d]).contains .nofixtures)
    (info : (st'.fn f).attrs.info = (st.fn f).attrs.info) : Inv b name args gen (ds ++ [d]) st' f := by
  obtain ⟨e1, e2, e3, e4⟩ := plain_same (ds := ds) hd
  have hf := h.hi
  have hb : b < st.next := Nat.lt_of_le_of_lt h.low hf
  refine Inv.mk (by omega) h.low ?_ ?_ ?_ ?_ ?_ ?_ ?_ tags reqs extra apart excl rep nofix ?_
  · rw [(hk f hf).2.2.1]; exact h.fname
  · rw [(hk b hb).2.2.2.1]; exact h.bargs
  · rw [(hk b hb).2.1]; exact h.bbody
  · obtain ⟨l, h1, h2⟩ := h.shape
    refine ⟨l, shape_kept hk hf h1, ?_⟩
    rw [e2, hpa, e3, e4]
    exact h2
  · obtain ⟨u, k, hp, hu⟩ := h.under
    refine ⟨u, k, hp.congr (fun i hi => (hk i (by omega)).2.2.2.2), ?_⟩
    rw [(hk u (by have := hp.last; omega)).2.1, e4]
    exact hu
  · rw [(hk f hf).2.2.2.2, e1, e3, e4]; exact h.wraps
  · rw [e1, hpa, hp]
    rcases h.params with h1 | ⟨r, h1, h2, h3⟩
    · exact .inl h1
    · exact .inr ⟨r, h1, by omega, h3⟩
  · rw [info, e3]; exact h.info

theorem setAttrs_self (st : St) (f : Nat) (a : Attrs) : ((st.setAttrs f a).fn f).attrs = a := by simp [St.setAttrs, put]

theorem setAttrs_reqs (st : St) (f b : Nat) (a : Attrs) (h : a.reqs = (st.fn f).attrs.reqs) :
    ((st.setAttrs f a).fn b).attrs.reqs = (st.fn b).attrs.reqs := by
  by_cases hb : b = f
  · subst hb; simp [St.setAttrs, put, h]
  · simp [St.setAttrs, put, hb]

/-- The markers: they change one attribute. -/
theorem Inv.marker {b name : Nat} {args : List Nat} {gen : Bool} {ds : List Deco} {st : St} {f : Nat} (h : Inv b name args gen ds st f) :
    (∀ x, Inv b name args gen (ds ++ [.exclude x]) (st.setAttrs f { (st.fn f).attrs with excl := (st.fn f).attrs.excl ++ [x] }) f) ∧
    (∀ n, Inv b name args gen (ds ++ [.repeat n]) (st.setAttrs f { (st.fn f).attrs with rep := some n }) f) ∧
    Inv b name args gen (ds ++ [.nofixtures]) (st.setAttrs f { (st.fn f).attrs with nofix := true }) f := by
  refine ⟨fun x => ?_, fun n => ?_, ?_⟩
  all_goals
    refine h.update rfl (Nat.le_refl _) (kept_setAttrs rfl) rfl (by rw [setAttrs_self]) ?_ ?_ ?_ ?_ ?_ ?_ ?_ (by rw [setAttrs_self])
    · rw [setAttrs_self]
      have := h.tags
      simpa [St.setAttrs] using this
    · rw [setAttrs_reqs st f b]
      rotate_left
      · rfl
      have := h.reqs
      simpa [St.setAttrs, reqsIn] using this
    · rw [setAttrs_self]
      have := h.extra
      simpa [St.setAttrs, extraIn] using this
    · rw [setAttrs_self, setAttrs_reqs st f b]
      rotate_left
      · rfl
      exact h.apart
    · rw [setAttrs_self]
      have := h.excl
      simp [exclIn] at this ⊢
      first | rw [this] | exact this
    · rw [setAttrs_self]
      have := h.rep
      simp [repsIn] at this ⊢
      try exact this
    · rw [setAttrs_self]
      have := h.nofix
      simp at this ⊢
      try exact this

/-! ## Tags -/

theorem set_keys (n : Nat) (v : Option Nat) (t : Tags) : (Tag.set n v t).map (·.1) = if n ∈ t.map (·.1) then t.map (·.1) else t.map (·.1) ++ [n] := by
  induction t with
  | nil => simp [Tag.set]
  | cons e t ih =>
    unfold Tag.set
    by_cases h : e.1 = n
    · simp [h]
    · have h' : n ≠ e.1 := fun x => h x.symm
      rw [if_neg h]
      simp only [List.map_cons, List.mem_cons, h', false_or, ih]
      split <;> simp

theorem set_nodup {n : Nat} {v : Option Nat} {t : Tags} (h : (t.map (·.1)).Nodup) : ((Tag.set n v t).map (·.1)).Nodup := by
  rw [set_keys]
  split
  · exact h
  · rename_i hn
    rw [List.nodup_append]
    exact ⟨h, by simp, fun a ha c hc => by rw [List.mem_singleton] at hc; subst hc; exact fun e => hn (e ▸ ha)⟩

theorem mem_set {n : Nat} {v : Option Nat} {t : Tags} (h : (t.map (·.1)).Nodup) (m : Nat) (w : Option Nat) :
    (m, w) ∈ Tag.set n v t ↔ (m = n ∧ w = v) ∨ (m ≠ n ∧ (m, w) ∈ t) := by
  induction t with
  | nil => simp [Tag.set]
  | cons e t ih =>
    rw [List.map_cons, List.nodup_cons] at h
    unfold Tag.set
    by_cases he : e.1 = n
    · rw [if_pos he, List.mem_cons, List.mem_cons]
      have hnot : ∀ w, (n, w) ∉ t := fun w hw => h.1 (he ▸ List.mem_map.2 ⟨(n, w), hw, rfl⟩)
      constructor
      · rintro (h1 | h1)
        · cases h1; exact .inl ⟨rfl, rfl⟩
        · by_cases hm : m = n
          · subst hm; exact absurd h1 (hnot w)
          · exact .inr ⟨hm, .inr h1⟩
      · rintro (⟨h1, h2⟩ | ⟨h1, h2 | h2⟩)
        · subst h1; subst h2; exact .inl rfl
        · subst h2; exact absurd he h1
        · exact .inr h2
    · rw [if_neg he, List.mem_cons, List.mem_cons, ih h.2]
      constructor
      · rintro (h1 | h1 | ⟨h1, h2⟩)
        · subst h1; exact .inr ⟨he, .inl rfl⟩
        · exact .inl h1
        · exact .inr ⟨h1, .inr h2⟩
      · rintro (h1 | ⟨h1, h2 | h2⟩)
        · exact .inr (.inl h1)
        · exact .inl h2
        · exact .inr (.inr ⟨h1, h2⟩)

/-- A tag given with the value it has, or for the first time, is accepted. -/
theorem get_fine {n : Nat} {v : Option Nat} {t : Tags} (h : ∀ w, (n, w) ∈ t → w = v) : Tag.get t n = v ∨ Tag.get t n = none := by
  unfold Tag.get
  rcases hf : t.find? (fun e => e.1 == n) with _ | e
  · exact .inr (by rw [hf]; rfl)
  · have hm := List.mem_of_find?_eq_some hf
    have hn : e.1 = n := by simpa using List.find?_some hf
    left
    rw [hf]
    exact h e.2 (hn ▸ hm)

theorem Inv.tagged {b name : Nat} {args : List Nat} {gen : Bool} {ds : List Deco} {st : St} {f n : Nat} {v : Option Nat} (h : Inv b name args gen ds st f)
    (ho : ∀ w, .tag n w ∈ ds → w = v) : ∃ st', tag st f n v = some (st', f) ∧ Inv b name args gen (ds ++ [.tag n v]) st' f := by
  have key : ∀ t : Tags, (t.map (·.1)).Nodup → (∀ m w, (m, w) ∈ t ↔ .tag m w ∈ ds) →
      (∀ m w, (m, w) ∈ Tag.set n v t ↔ .tag m w ∈ ds ++ [.tag n v]) ∧ ((Tag.set n v t).map (·.1)).Nodup := by
    intro t ht hm
    refine ⟨fun m w => ?_, set_nodup ht⟩
    rw [mem_set ht, List.mem_append, List.mem_singleton, hm]
    constructor
    · rintro (⟨rfl, rfl⟩ | ⟨_, h2⟩)
      · exact .inr rfl
      · exact .inl h2
    · rintro (h1 | h1)
      · by_cases e : m = n
        · subst e; exact .inl ⟨rfl, ho w h1⟩
        · exact .inr ⟨e, h1⟩
      · cases h1; exact .inl ⟨rfl, rfl⟩
  rcases h.tags with ⟨h1, h2⟩ | ⟨r, h1, h2, h3, h4⟩
  · refine ⟨_, by unfold tag; rw [h1], ?_⟩
    obtain ⟨k1, k2⟩ := key [] (by simp) (fun m w => by simp [h2])
    refine h.update (d := .tag n v) rfl (Nat.le_succ _) ?_ rfl ?_ (.inr ⟨st.next, ?_, Nat.lt_succ_self _, ?_⟩) ?_ ?_ ?_ ?_ ?_ ?_ ?_
    · exact kept_setAttrs rfl
    · simp [St.setAttrs, put]
    · simp [St.setAttrs, put]
    · simp only [put, if_true]; exact ⟨k1, k2⟩
    · have := h.reqs
      have e : ((st.setAttrs f { (st.fn f).attrs with tags := some st.next }).fn b).attrs.reqs = (st.fn b).attrs.reqs := setAttrs_reqs _ _ _ _ rfl
      dsimp only
      rw [e]
      rcases this with h1 | ⟨r, h1, h2, h3⟩
      · exact .inl ⟨h1.1, by simpa [reqsIn] using h1.2⟩
      · exact .inr ⟨r, h1, by omega, by simpa [St.setAttrs, reqsIn] using h3⟩
    · have := h.extra
      simp only [St.setAttrs, put, if_true]
      rcases this with h1 | ⟨r, h1, h2, h3⟩
      · exact .inl ⟨h1.1, by simpa [extraIn] using h1.2⟩
      · exact .inr ⟨r, h1, by omega, by simpa [extraIn] using h3⟩
    · have e : ((st.setAttrs f { (st.fn f).attrs with tags := some st.next }).fn b).attrs.reqs = (st.fn b).attrs.reqs := setAttrs_reqs _ _ _ _ rfl
      dsimp only
      rw [e, setAttrs_self]
      exact h.apart
    · dsimp only; rw [setAttrs_self]; simpa [exclIn] using h.excl
    · dsimp only; rw [setAttrs_self]; simpa [repsIn] using h.rep
    · dsimp only; rw [setAttrs_self]; simpa using h.nofix
    · dsimp only; rw [setAttrs_self]
  · refine ⟨_, by unfold tag; simp only [h1]; rw [if_pos (get_fine (fun w hw => ho w ((h3 n w).1 hw)))], ?_⟩
    obtain ⟨k1, k2⟩ := key _ h4 h3
    refine h.update (d := .tag n v) rfl (Nat.le_refl _) (fun i _ => ⟨rfl, rfl, rfl, rfl, rfl⟩) rfl rfl (.inr ⟨r, h1, h2, ?_⟩) ?_ ?_ h.apart ?_ ?_ ?_ rfl
    · simp only [put, if_true]; exact ⟨k1, k2⟩
    · simpa [reqsIn] using h.reqs
    · simpa [extraIn] using h.extra
    · simpa [exclIn] using h.excl
    · simpa [repsIn] using h.rep
    · simpa using h.nofix

/-! ## Requirements and fixtures used -/

theorem Inv.reqsOf {b name : Nat} {args : List Nat} {gen : Bool} {ds : List Deco} {st : St} {f : Nat} (h : Inv b name args gen ds st f) :
    reqsOf st f = (reqsIn ds, match (st.fn b).attrs.reqs with | none => none | some x => some x.2) := by
  unfold Deco.reqsOf
  rw [h.bottom]
  rcases h.reqs with ⟨h1, h2⟩ | ⟨r, h1, h2, h3⟩
  · simp only [h1, h2]
  · simp only [h1, h3, if_true]

theorem Inv.required {b name : Nat} {args : List Nat} {gen : Bool} {ds : List Deco} {st : St} {f q : Nat} (h : Inv b name args gen ds st f) :
    (requires st f q).2 = f ∧ Inv b name args gen (ds ++ [.requires q]) (requires st f q).1 f := by
  have hr := h.reqsOf
  have hb := h.bottom
  have hrq : reqsIn (ds ++ [.requires q]) = reqsIn ds ++ [q] := by simp [reqsIn]
  rcases h.reqs with ⟨h1, h2⟩ | ⟨r, h1, h2, h3⟩
  · have e : requires st f q = ({ st.setAttrs b { (st.fn b).attrs with reqs := some (b, st.next) } with
        next := st.next + 1, list := put st.next (reqsIn ds ++ [q]) st.list }, f) := by
      unfold requires
      rw [hr, h1, hb]
    rw [e]
    refine ⟨rfl, ?_⟩
    have hat : ∀ i, (((st.setAttrs b { (st.fn b).attrs with reqs := some (b, st.next) }).fn i).attrs) =
        if i = b then { (st.fn b).attrs with reqs := some (b, st.next) } else (st.fn i).attrs := by
      intro i
      by_cases hi : i = b
      · subst hi; simp [St.setAttrs, put]
      · simp [St.setAttrs, put, hi]
    have hsame : ∀ {α : Type} (g : Attrs → α), (∀ a x, g { a with reqs := x } = g a) →
        g (((st.setAttrs b { (st.fn b).attrs with reqs := some (b, st.next) }).fn f).attrs) = g (st.fn f).attrs := by
      intro α g hg
      rw [hat]
      by_cases hf : f = b
      · rw [if_pos hf, hf]; exact hg _ _
      · rw [if_neg hf]
    refine h.update (d := .requires q) rfl (Nat.le_succ _) ?_ rfl ?_ ?_ ?_ ?_ ?_ ?_ ?_ ?_ ?_
    · exact kept_setAttrs rfl
    · exact hsame (·.params) (fun _ _ => rfl)
    · dsimp only
      rw [hsame (·.tags) (fun _ _ => rfl)]
      rcases h.tags with t1 | ⟨r, t1, t2, t3⟩
      · exact .inl (by simpa using t1)
      · exact .inr ⟨r, t1, by omega, by simpa [St.setAttrs] using t3⟩
    · right
      refine ⟨st.next, ?_, Nat.lt_succ_self _, ?_⟩
      · dsimp only; rw [hat, if_pos rfl]
      · dsimp only; rw [hrq]; simp [put]
    · dsimp only
      rw [hsame (·.extra) (fun _ _ => rfl)]
      rcases h.extra with t1 | ⟨r, t1, t2, t3⟩
      · exact .inl (by simpa [extraIn] using t1)
      · refine .inr ⟨r, t1, by omega, ?_⟩
        have : r ≠ st.next := by omega
        simp only [put, this, if_false, t3]
        simp [extraIn]
    · dsimp only
      rw [hsame (·.extra) (fun _ _ => rfl), hat, if_pos rfl]
      intro r p hr hp
      cases hr
      rcases h.extra with t1 | ⟨r, t1, t2, t3⟩
      · rw [t1.1] at hp; cases hp
      · rw [t1] at hp; cases hp; omega
    · exact (hsame (·.excl) (fun _ _ => rfl)).trans (by simpa [exclIn] using h.excl)
    · exact (hsame (·.rep) (fun _ _ => rfl)).trans (by simpa [repsIn] using h.rep)
    · exact (hsame (·.nofix) (fun _ _ => rfl)).trans (by simpa using h.nofix)
    · exact hsame (·.info) (fun _ _ => rfl)
  · have e : requires st f q = ({ st with list := put r (reqsIn ds ++ [q]) st.list }, f) := by
      unfold requires
      rw [hr, h1]
    rw [e]
    refine ⟨rfl, ?_⟩
    refine h.update (d := .requires q) rfl (Nat.le_refl _) (fun i _ => ⟨rfl, rfl, rfl, rfl, rfl⟩) rfl rfl ?_ (.inr ⟨r, h1, h2, ?_⟩) ?_ h.apart ?_ ?_ ?_ rfl
    · simpa using h.tags
    · dsimp only; rw [hrq]; simp [put]
    · rcases h.extra with t1 | ⟨p, t1, t2, t3⟩
      · exact .inl (by simpa [extraIn] using t1)
      · refine .inr ⟨p, t1, t2, ?_⟩
        have : p ≠ r := fun e => h.apart r p h1 t1 e.symm
        simp only [put, this, if_false, t3]
        simp [extraIn]
    · simpa [exclIn] using h.excl
    · simpa [repsIn] using h.rep
    · simpa using h.nofix

theorem Inv.using {b name : Nat} {args : List Nat} {gen : Bool} {ds : List Deco} {st : St} {f : Nat} {l : List Nat} (h : Inv b name args gen ds st f) :
    (useFixtures st f l).2 = f ∧ Inv b name args gen (ds ++ [.useFixtures l]) (useFixtures st f l).1 f := by
  have hx : extraIn (ds ++ [.useFixtures l]) = extraIn ds ++ l := by simp [extraIn]
  rcases h.extra with ⟨h1, h2⟩ | ⟨r, h1, h2, h3⟩
  · have e : useFixtures st f l = ({ st.setAttrs f { (st.fn f).attrs with extra := some st.next } with
        next := st.next + 1, list := put st.next l st.list }, f) := by
      unfold useFixtures
      rw [h1]
    rw [e]
    refine ⟨rfl, ?_⟩
    have eq : ((st.setAttrs f { (st.fn f).attrs with extra := some st.next }).fn b).attrs.reqs = (st.fn b).attrs.reqs := setAttrs_reqs _ _ _ _ rfl
    refine h.update (d := .useFixtures l) rfl (Nat.le_succ _) ?_ rfl ?_ ?_ ?_ (.inr ⟨st.next, ?_, Nat.lt_succ_self _, ?_⟩) ?_ ?_ ?_ ?_ ?_
    · exact kept_setAttrs rfl
    · dsimp only; rw [setAttrs_self]
    · dsimp only; rw [setAttrs_self]
      rcases h.tags with t1 | ⟨r, t1, t2, t3⟩
      · exact .inl (by simpa using t1)
      · exact .inr ⟨r, t1, by omega, by simpa [St.setAttrs] using t3⟩
    · dsimp only; rw [eq]
      rcases h.reqs with t1 | ⟨r, t1, t2, t3⟩
      · exact .inl ⟨t1.1, by simpa [reqsIn] using t1.2⟩
      · refine .inr ⟨r, t1, by omega, ?_⟩
        have : r ≠ st.next := by omega
        simp only [put, this, if_false, t3]
        simp [reqsIn]
    · dsimp only; rw [setAttrs_self]
    · dsimp only; rw [hx, h2]; simp [put]
    · dsimp only; rw [eq, setAttrs_self]
      intro r p hr hp
      cases hp
      rcases h.reqs with t1 | ⟨r', t1, t2, t3⟩
      · rw [t1.1] at hr; cases hr
      · rw [t1] at hr; cases hr; omega
    · dsimp only; rw [setAttrs_self]; simpa [exclIn] using h.excl
    · dsimp only; rw [setAttrs_self]; simpa [repsIn] using h.rep
    · dsimp only; rw [setAttrs_self]; simpa using h.nofix
    · dsimp only; rw [setAttrs_self]
  · have e : useFixtures st f l = ({ st with list := put r (st.list r ++ l) st.list }, f) := by
      unfold useFixtures
      rw [h1]
    rw [e]
    refine ⟨rfl, ?_⟩
    refine h.update (d := .useFixtures l) rfl (Nat.le_refl _) (fun i _ => ⟨rfl, rfl, rfl, rfl, rfl⟩) rfl rfl ?_ ?_ (.inr ⟨r, h1, h2, ?_⟩) h.apart ?_ ?_ ?_ rfl
    · simpa using h.tags
    · rcases h.reqs with t1 | ⟨p, t1, t2, t3⟩
      · exact .inl ⟨t1.1, by simpa [reqsIn] using t1.2⟩
      · refine .inr ⟨p, t1, t2, ?_⟩
        have : p ≠ r := h.apart p r t1 h1
        simp only [put, this, if_false, t3]
        simp [reqsIn]
    · dsimp only; rw [hx, h3]; simp [put]
    · simpa [exclIn] using h.excl
    · simpa [repsIn] using h.rep
    · simpa using h.nofix

/-! ## Functions around the function -/

theorem around_same {ds : List Deco} {d : Deco} (h : plain d = false) :
    (∀ n v, .tag n v ∈ ds ++ [d] ↔ .tag n v ∈ ds) ∧ reqsIn (ds ++ [d]) = reqsIn ds ∧ extraIn (ds ++ [d]) = extraIn ds ∧
      exclIn (ds ++ [d]) = exclIn ds ∧ repsIn (ds ++ [d]) = repsIn ds ∧ (ds ++ [d]).contains .nofixtures = ds.contains .nofixtures := by
  refine ⟨fun n v => ?_, ?_, ?_, ?_, ?_, ?_⟩
  · cases d <;> first | (simp [plain] at h; done) | (simp; done)
  · cases d <;> first | (simp [plain] at h; done) | (simp [reqsIn]; done)
  · cases d <;> first | (simp [plain] at h; done) | (simp [extraIn]; done)
  · cases d <;> first | (simp [plain] at h; done) | (simp [exclIn]; done)
  · cases d <;> first | (simp [plain] at h; done) | (simp [repsIn]; done)
  · cases d <;> first | (simp [plain] at h; done) | (simp; done)

theorem Inv.around {b name : Nat} {args : List Nat} {gen : Bool} {ds : List Deco} {st st' : St} {f f' : Nat} {d : Deco} {B : Body}
    (h : Inv b name args gen ds st f) (hd : plain d = false) (hn : st.next ≤ f') (hf' : f' < st'.next) (hk : Kept st st')
    (hr : (st'.fn b).attrs.reqs = (st.fn b).attrs.reqs) (ht : st'.tags = st.tags) (hl : st'.list = st.list)
    (hi : (st'.fn f').inner = some f) (hB : (st'.fn f').body = B) (hname : (st'.fn f').name = (st.fn f).name)
    (ha : (st'.fn f').attrs.tags = (st.fn f).attrs.tags ∧ (st'.fn f').attrs.extra = (st.fn f).attrs.extra ∧ (st'.fn f').attrs.excl = (st.fn f).attrs.excl ∧
      (st'.fn f').attrs.rep = (st.fn f).attrs.rep ∧ (st'.fn f').attrs.nofix = (st.fn f).attrs.nofix)
    (hu : (userOf B).toList ++ (usersIn ds).reverse = (usersIn (ds ++ [d])).reverse)
    (hpl : (paramOf B).toList ++ (st.fn f).attrs.params.toList = (st'.fn f').attrs.params.toList)
    (hc : (if B = .yields then 1 else 0) + (if (gen && direct ds) = true ∧ fixesIn ds ≠ [] then 1 else 0) =
      (if (gen && direct (ds ++ [d])) = true ∧ fixesIn (ds ++ [d]) ≠ [] then 1 else 0))
    (hb : B ≠ .base true ∧ B ≠ .base false)
    (under : ∃ u k, Path (fun i => (st'.fn i).attrs.wraps) f' u k ∧ Deco.isGen (st'.fn u).body = (gen && direct (ds ++ [d])))
    (wraps : (st'.fn f').attrs.wraps = none ↔ decls (ds ++ [d]) = [] ∧ ((gen && direct (ds ++ [d])) = true → fixesIn (ds ++ [d]) = []))
    (params : (st'.fn f').attrs.params = none ∧ decls (ds ++ [d]) = [] ∨ ∃ r, (st'.fn f').attrs.params = some r ∧ r < st'.next ∧ decls (ds ++ [d]) ≠ [] ∧
      st'.pinfo r = { args := args, params := (decls (ds ++ [d])).filter (fun e => args.contains e.1), extra := (decls (ds ++ [d])).filter (fun e => !args.contains e.1) })
    (info : (st'.fn f').attrs.info = (fixesIn (ds ++ [d])).head?.map (fun x => ⟨x.1.getD name, x.2.1, x.2.2, args⟩)) :
    Inv b name args gen (ds ++ [d]) st' f' := by
  obtain ⟨e1, e2, e3, e4, e5, e6⟩ := around_same (ds := ds) hd
  have hf := h.hi
  have hlow := h.low
  have hbn : b < st.next := by omega
  refine Inv.mk hf' (by omega) ?_ ?_ ?_ ?_ under wraps params ?_ ?_ ?_ ?_ ?_ ?_ ?_ info
  · rw [hname]; exact h.fname
  · rw [(hk b hbn).2.2.2.1]; exact h.bargs
  · rw [(hk b hbn).2.1]; exact h.bbody
  · obtain ⟨l, h1, h2, h3, h4, h5, h6⟩ := h.shape
    have hs := Shape.around (b := b) hi (by omega) (shape_kept hk hf h1)
    rw [hB] at hs
    refine ⟨B :: l, hs, ?_, ?_, ?_, ?_, ?_⟩
    · rw [← hu, List.filterMap_cons, h2]
      cases userOf B <;> rfl
    · rw [← hpl, List.filterMap_cons, h3]
      cases paramOf B <;> rfl
    · rw [← hc, List.count_cons, h4]
      simp only [beq_iff_eq]
      omega
    · rw [List.mem_cons]; rintro (e | e)
      · exact hb.1 e.symm
      · exact h5 e
    · rw [List.mem_cons]; rintro (e | e)
      · exact hb.2 e.symm
      · exact h6 e
  · rw [ha.1, ht]
    simp only [e1]
    rcases h.tags with t1 | ⟨r, t1, t2, t3⟩
    · exact .inl t1
    · exact .inr ⟨r, t1, by omega, t3⟩
  · rw [hr, hl, e2]
    rcases h.reqs with t1 | ⟨r, t1, t2, t3⟩
    · exact .inl t1
    · exact .inr ⟨r, t1, by omega, t3⟩
  · rw [ha.2.1, hl, e3]
    rcases h.extra with t1 | ⟨r, t1, t2, t3⟩
    · exact .inl t1
    · exact .inr ⟨r, t1, by omega, t3⟩
  · rw [hr, ha.2.1]; exact h.apart
  · rw [ha.2.2.1, e4]; exact h.excl
  · rw [ha.2.2.2.1, e5]; exact h.rep
  · rw [ha.2.2.2.2, e6]; exact h.nofix

theorem put_new {α : Type} (i : Nat) (a : α) (g : Nat → α) : put i a g i = a := by simp [put]
theorem put_old {α : Type} {i j : Nat} (a : α) (g : Nat → α) (h : j ≠ i) : put i a g j = g j := by simp [put, h]

theorem Inv.byUser {b name : Nat} {args : List Nat} {gen : Bool} {ds : List Deco} {st : St} {f : Nat} (x : Nat) (h : Inv b name args gen ds st f) :
    Inv b name args gen (ds ++ [.user x]) (wrap st f (.user x) (st.fn f).attrs).1 (wrap st f (.user x) (st.fn f).attrs).2 := by
  have hf := h.hi
  have hlow := h.low
  have ed : decls (ds ++ [.user x]) = decls ds := by simp [decls]
  have ef : fixesIn (ds ++ [.user x]) = fixesIn ds := by simp [fixesIn]
  have old : ∀ i, i < st.next → (wrap st f (.user x) (st.fn f).attrs).1.fn i = st.fn i := by
    intro i hi
    exact put_old _ _ (by omega)
  have new : (wrap st f (.user x) (st.fn f).attrs).1.fn st.next = { st.fn f with body := .user x, inner := some f, attrs := (st.fn f).attrs } := put_new _ _ _
  -- the first decorator of the user's counts if nothing is around the function so far
  have hdir : (st.fn f).attrs.wraps = none → (gen && direct (ds ++ [.user x])) = false := by
    intro hw
    obtain ⟨w1, w2⟩ := h.wraps.1 hw
    rw [direct_snoc]
    rcases hs : ds.findSome? kindOf with _ | (_ | _)
    · simp [kindOf]
    · simp
    · cases gen
      · rfl
      · exfalso
        have hd : direct ds = true := by unfold direct; rw [hs]; rfl
        have hfx := w2 (by simp [hd])
        obtain ⟨d, hd1, hd2⟩ := List.exists_of_findSome?_eq_some hs
        cases d with
        | parametrize n vs =>
          have : (n, vs) ∈ decls ds := List.mem_filterMap.2 ⟨_, hd1, rfl⟩
          rw [w1] at this; cases this
        | fixture n s a =>
          have : (n, s, a) ∈ fixesIn ds := List.mem_filterMap.2 ⟨_, hd1, rfl⟩
          rw [hfx] at this; cases this
        | user d => simp [kindOf] at hd2
        | tag _ _ => simp [kindOf] at hd2
        | requires _ => simp [kindOf] at hd2
        | exclude _ => simp [kindOf] at hd2
        | «repeat» _ => simp [kindOf] at hd2
        | useFixtures _ => simp [kindOf] at hd2
        | nofixtures => simp [kindOf] at hd2
  have hsame : (st.fn f).attrs.wraps ≠ none → (gen && direct (ds ++ [.user x])) = (gen && direct ds) := by
    intro hw
    rw [direct_snoc]
    unfold direct
    rcases hs : ds.findSome? kindOf with _ | y
    · exfalso
      have hno := List.findSome?_eq_none_iff.1 hs
      refine hw (h.wraps.2 ⟨?_, fun _ => ?_⟩)
      · rw [decls, List.filterMap_eq_nil_iff]
        intro d hd
        have := hno d hd
        cases d <;> first | rfl | (simp [kindOf] at this)
      · rw [fixesIn, List.filterMap_eq_nil_iff]
        intro d hd
        have := hno d hd
        cases d <;> first | rfl | (simp [kindOf] at this)
    · rfl
  have hcount : ((gen && direct (ds ++ [.user x])) = true ∧ fixesIn ds ≠ []) ↔ ((gen && direct ds) = true ∧ fixesIn ds ≠ []) := by
    by_cases hw : (st.fn f).attrs.wraps = none
    · rw [hdir hw]
      obtain ⟨w1, w2⟩ := h.wraps.1 hw
      constructor
      · rintro ⟨h1, -⟩; cases h1
      · rintro ⟨h1, h2⟩; exact absurd (w2 h1) h2
    · rw [hsame hw]
  show Inv b name args gen (ds ++ [.user x]) (wrap st f (.user x) (st.fn f).attrs).1 st.next
  refine h.around (B := .user x) (st' := (wrap st f (.user x) (st.fn f).attrs).1) rfl (Nat.le_refl _) (Nat.lt_succ_self _) (fun i hi => by rw [old i hi]; exact ⟨rfl, rfl, rfl, rfl, rfl⟩)
    (by rw [old b (by omega)]) rfl rfl ?_ ?_ ?_ ?_ ?_ ?_ ?_ (by simp) ?_ ?_ ?_ ?_
  · rw [new]
  · rw [new]
  · rw [new]
  · rw [new]; exact ⟨rfl, rfl, rfl, rfl, rfl⟩
  · simp [userOf, usersIn]
  · rw [new]; simp [paramOf]
  · rw [ef, if_neg (by simp), Nat.zero_add]
    simp only [hcount]
  · by_cases hw : (st.fn f).attrs.wraps = none
    · refine ⟨st.next, 0, .here (by rw [new]; exact hw), ?_⟩
      rw [new, hdir hw]
      rfl
    · obtain ⟨g, hg⟩ := Option.ne_none_iff_exists'.1 hw
      obtain ⟨u, k, hp, hu⟩ := h.under
      cases hp with
      | here h0 => exact absurd h0 hw
      | @there _ g' _ k h0 hl hp =>
        refine ⟨u, k + 1, .there (g := g') (by rw [new]; exact h0) (by omega) (hp.congr (fun i hi => by rw [old i (by omega)])), ?_⟩
        rw [old u (by have := hp.last; omega), hsame hw]
        exact hu
  · rw [new, ed, ef]
    constructor
    · intro hw
      refine ⟨(h.wraps.1 hw).1, fun hx => ?_⟩
      rw [hdir hw] at hx; cases hx
    · rintro ⟨h1, h2⟩
      apply Classical.byContradiction
      intro hw
      rw [hsame hw] at h2
      exact hw (h.wraps.2 ⟨h1, h2⟩)
  · rw [new, ed]
    rcases h.params with t1 | ⟨r, t1, t2, t3⟩
    · exact .inl t1
    · exact .inr ⟨r, t1, Nat.lt_succ_of_lt t2, t3⟩
  · rw [new, ef]; exact h.info

theorem dset_new {k : Nat} {v : List Nat} {t : List (Nat × List Nat)} (h : k ∉ t.map (·.1)) : dset k v t = t ++ [(k, v)] := by
  induction t with
  | nil => rfl
  | cons e t ih =>
    simp only [List.map_cons, List.mem_cons, not_or] at h
    unfold dset
    rw [if_neg (fun x => h.1 x.symm), ih h.2, List.cons_append]

/-- The parameters declared, as they are kept. -/
def kept (args : List Nat) (l : List (Nat × List Nat)) : PInfo :=
  { args := args, params := l.filter (fun e => args.contains e.1), extra := l.filter (fun e => !args.contains e.1) }

theorem addOptions_kept {args : List Nat} {l : List (Nat × List Nat)} {n : Nat} {vs : List Nat} (h : n ∉ l.map (·.1)) :
    addOptions (kept args l) n vs = some (kept args (l ++ [(n, vs)])) := by
  have h1 : ∀ q : Nat × List Nat → Bool, n ∉ (l.filter q).map (·.1) := by
    intro q hm
    obtain ⟨e, he, hn⟩ := List.mem_map.1 hm
    exact h (List.mem_map.2 ⟨e, (List.mem_filter.1 he).1, hn⟩)
  have hany : ((kept args l).params.any (fun e => e.1 == n)) = false := by
    rw [List.any_eq_false]
    intro e he hc
    exact h1 _ (List.mem_map.2 ⟨e, he, by simpa using hc⟩)
  unfold addOptions
  rw [hany]
  simp only [Bool.false_eq_true, if_false]
  by_cases ha : args.contains n = true
  · rw [if_pos (by exact ha)]
    simp only [kept, dset_new (h1 _), List.filter_append, Option.some.injEq, PInfo.mk.injEq]
    refine ⟨trivial, ?_, ?_⟩
    · rw [List.filter_cons_of_pos (by exact ha)]; rfl
    · rw [List.filter_cons_of_neg (by rw [ha]; simp)]; simp
  · rw [if_neg (by exact ha)]
    rw [Bool.not_eq_true] at ha
    simp only [kept, dset_new (h1 _), List.filter_append, Option.some.injEq, PInfo.mk.injEq]
    refine ⟨trivial, ?_, ?_⟩
    · rw [List.filter_cons_of_neg (by rw [ha]; simp)]; simp
    · rw [List.filter_cons_of_pos (by rw [ha]; rfl)]; rfl

theorem Inv.parametrized {b name : Nat} {args : List Nat} {gen : Bool} {ds : List Deco} {st : St} {f n : Nat} {vs : List Nat}
    (h : Inv b name args gen ds st f) (hn : n ∉ (decls ds).map (·.1)) :
    ∃ st' f', parametrize st f n vs = some (st', f') ∧ Inv b name args gen (ds ++ [.parametrize n vs]) st' f' := by
  have ed : decls (ds ++ [.parametrize n vs]) = decls ds ++ [(n, vs)] := by simp [decls]
  have ef : fixesIn (ds ++ [.parametrize n vs]) = fixesIn ds := by simp [fixesIn]
  have eu : usersIn (ds ++ [.parametrize n vs]) = usersIn ds := by simp [usersIn]
  have edir : direct (ds ++ [.parametrize n vs]) = direct ds := direct_same (by simp [kindOf])
  obtain ⟨e1, e2, e3, e4, e5, e6⟩ := around_same (ds := ds) (d := .parametrize n vs) rfl
  have hf := h.hi
  have hlow := h.low
  rcases h.params with ⟨h1, h2⟩ | ⟨r, h1, h2, h3, h4⟩
  · -- a new function around it
    have hargs := h.argsOf
    have hadd : addOptions { args := Deco.argsOf st f } n vs = some (kept args (decls ds ++ [(n, vs)])) := by
      rw [hargs, ← addOptions_kept (args := args) (l := decls ds) hn, h2]
      rfl
    let a : Attrs := { (st.fn f).attrs with params := some st.next, wraps := some f }
    let st' : St := { next := st.next + 2
                      fn := put (st.next + 1) { st.fn f with body := .param st.next, inner := some f, attrs := a } st.fn
                      pinfo := put st.next (kept args (decls ds ++ [(n, vs)])) st.pinfo
                      tags := st.tags
                      list := st.list }
    have e : parametrize st f n vs = some (st', st.next + 1) := by
      unfold parametrize
      rw [h1]
      dsimp only
      rw [hadd]
      rfl
    have old : ∀ i, i < st.next → st'.fn i = st.fn i := fun i hi => put_old _ _ (by omega)
    have new : st'.fn (st.next + 1) = { st.fn f with body := .param st.next, inner := some f, attrs := a } := put_new _ _ _
    refine ⟨st', st.next + 1, e, ?_⟩
    refine h.around (B := .param st.next) (st' := st') rfl (Nat.le_succ _) (Nat.lt_succ_self _)
      (fun i hi => by rw [old i hi]; exact ⟨rfl, rfl, rfl, rfl, rfl⟩) (by rw [old b (by omega)]) rfl rfl (by rw [new]) (by rw [new]) (by rw [new])
      (by rw [new]; exact ⟨rfl, rfl, rfl, rfl, rfl⟩) (by simp [userOf, eu]) (by rw [new, h1]; rfl) ?_ (by simp) ?_ ?_ ?_ ?_
    · rw [edir, ef, if_neg (by simp), Nat.zero_add]
    · obtain ⟨u, k, hp, hu⟩ := h.under
      refine ⟨u, k + 1, .there (g := f) (by rw [new]) (by omega) (hp.congr (fun i hi => by rw [old i (by omega)])), ?_⟩
      rw [old u (by have := hp.last; omega), edir]
      exact hu
    · rw [new, ed]
      simp [a]
    · rw [new, ed]
      right
      exact ⟨st.next, rfl, by show st.next < st.next + 2; omega, by simp, put_new _ _ _⟩
    · rw [new, ef]; exact h.info
  · have hadd : addOptions (st.pinfo r) n vs = some (kept args (decls ds ++ [(n, vs)])) := by
      rw [h4]; exact addOptions_kept hn
    refine ⟨{ st with pinfo := put r (kept args (decls ds ++ [(n, vs)])) st.pinfo }, f, by unfold parametrize; rw [h1]; dsimp only; rw [hadd]; rfl, ?_⟩
    refine Inv.mk hf hlow h.fname h.bargs h.bbody ?_ ?_ ?_ ?_ ?_ ?_ ?_ h.apart ?_ ?_ ?_ ?_
    · obtain ⟨l, s1, s2⟩ := h.shape
      refine ⟨l, s1.congr (fun i _ => ⟨rfl, rfl⟩), ?_⟩
      rw [eu, edir, ef]
      exact s2
    · rw [edir]; exact h.under
    · rw [edir, ef, ed]
      constructor
      · intro hw; exact absurd (h.wraps.1 hw).1 h3
      · rintro ⟨hw, -⟩; simp at hw
    · right
      refine ⟨r, h1, h2, by rw [ed]; simp, ?_⟩
      rw [ed]
      exact put_new _ _ _
    · simp only [e1]; exact h.tags
    · rw [e2]; exact h.reqs
    · rw [e3]; exact h.extra
    · rw [e4]; exact h.excl
    · rw [e5]; exact h.rep
    · rw [e6]; exact h.nofix
    · rw [ef]; exact h.info

theorem Inv.fixtured {b name : Nat} {args : List Nat} {gen : Bool} {ds : List Deco} {st : St} {f : Nat} (n : Option Nat) (s : Nat) (au : Bool)
    (h : Inv b name args gen ds st f) (hx : fixesIn ds = []) :
    Inv b name args gen (ds ++ [.fixture n s au]) (fixture st f n s au).1 (fixture st f n s au).2 := by
  have ed : decls (ds ++ [.fixture n s au]) = decls ds := by simp [decls]
  have ef : fixesIn (ds ++ [.fixture n s au]) = [(n, s, au)] := by
    have : fixesIn (ds ++ [.fixture n s au]) = fixesIn ds ++ [(n, s, au)] := by simp [fixesIn]
    rw [this, hx]; rfl
  have eu : usersIn (ds ++ [.fixture n s au]) = usersIn ds := by simp [usersIn]
  have edir : direct (ds ++ [.fixture n s au]) = direct ds := direct_same (by simp [kindOf])
  obtain ⟨e1, e2, e3, e4, e5, e6⟩ := around_same (ds := ds) (d := .fixture n s au) rfl
  have hf := h.hi
  have hlow := h.low
  have hinfo : (st.fn f).attrs.info = none := by rw [h.info, hx]; rfl
  let a : Attrs := { (st.fn f).attrs with info := some ⟨n.getD name, s, au, args⟩ }
  have hens : ensureInfo st f n s au = st.setAttrs f a := by
    unfold ensureInfo
    rw [hinfo]
    dsimp only
    rw [h.fname, h.argsOf]
  have hg := h.isGen
  by_cases hgen : (gen && direct ds) = true
  · -- a generator
    rw [hgen] at hg
    let a' : Attrs := { a with wraps := some f }
    let st' : St := { (st.setAttrs f a) with next := st.next + 1, fn := put st.next { (st.setAttrs f a).fn f with body := .yields, inner := some f, attrs := a' } (st.setAttrs f a).fn }
    have e : fixture st f n s au = (st', st.next) := by
      unfold fixture
      rw [if_pos hg, hens]
      dsimp only
      unfold wrap
      rw [setAttrs_self]
      rfl
    rw [e]
    have hk0 : Kept st (st.setAttrs f a) := kept_setAttrs rfl
    have old : ∀ i, i < st.next → st'.fn i = (st.setAttrs f a).fn i := fun i hi => put_old _ _ (by omega)
    have new : st'.fn st.next = { (st.setAttrs f a).fn f with body := .yields, inner := some f, attrs := a' } := put_new _ _ _
    have hk : Kept st st' := fun i hi => by rw [old i hi]; exact hk0 i hi
    refine h.around (B := .yields) (st' := st') rfl (Nat.le_refl _) (Nat.lt_succ_self _) hk
      (by rw [old b (by omega)]; exact setAttrs_reqs _ _ _ _ rfl) rfl rfl (by rw [new]) (by rw [new]) (by rw [new]; simp [St.setAttrs, put])
      (by rw [new]; exact ⟨rfl, rfl, rfl, rfl, rfl⟩) (by simp [userOf, eu]) (by rw [new]; rfl) ?_ (by simp) ?_ ?_ ?_ ?_
    · rw [edir, ef, hx, hgen]
      simp
    · obtain ⟨u, k, hp, hu⟩ := h.under
      refine ⟨u, k + 1, .there (g := f) (by rw [new]) (by omega) (hp.congr (fun i hi => (hk i (by omega)).2.2.2.2)), ?_⟩
      rw [(hk u (by have := hp.last; omega)).2.1, edir]
      exact hu
    · rw [new, ed, ef, edir, hgen]
      simp [a']
    · rw [new, ed]
      rcases h.params with t1 | ⟨r, t1, t2, t3⟩
      · exact .inl t1
      · exact .inr ⟨r, t1, Nat.lt_succ_of_lt t2, t3⟩
    · rw [new, ef]; rfl
  · rw [Bool.not_eq_true] at hgen
    rw [hgen] at hg
    have e : fixture st f n s au = (st.setAttrs f a, f) := by
      unfold fixture
      rw [if_neg (by rw [hg]; simp), hens]
    rw [e]
    have hk : Kept st (st.setAttrs f a) := kept_setAttrs rfl
    have hat : ((st.setAttrs f a).fn f).attrs = a := setAttrs_self _ _ _
    have hrq : ((st.setAttrs f a).fn b).attrs.reqs = (st.fn b).attrs.reqs := setAttrs_reqs _ _ _ _ rfl
    have hb : b < st.next := by omega
    refine Inv.mk hf hlow ?_ ?_ ?_ ?_ ?_ ?_ ?_ ?_ ?_ ?_ ?_ ?_ ?_ ?_ ?_
    · rw [(hk f hf).2.2.1]; exact h.fname
    · rw [(hk b hb).2.2.2.1]; exact h.bargs
    · rw [(hk b hb).2.1]; exact h.bbody
    · obtain ⟨l, s1, s2, s3, s4, s5⟩ := h.shape
      refine ⟨l, shape_kept hk hf s1, ?_, ?_, ?_, s5⟩
      · rw [eu]; exact s2
      · rw [hat]; exact s3
      · rw [s4, edir, hgen]; simp
    · obtain ⟨u, k, hp, hu⟩ := h.under
      refine ⟨u, k, hp.congr (fun i hi => (hk i (by omega)).2.2.2.2), ?_⟩
      rw [(hk u (by have := hp.last; omega)).2.1, edir]
      exact hu
    · rw [hat, ed, edir, hgen]
      show (st.fn f).attrs.wraps = none ↔ _
      rw [h.wraps, hgen]
      simp
    · rw [hat, ed]; exact h.params
    · rw [hat]; simp only [e1]; exact h.tags
    · rw [hrq, e2]; exact h.reqs
    · rw [hat, e3]; exact h.extra
    · rw [hat, hrq]; exact h.apart
    · rw [hat, e4]; exact h.excl
    · rw [hat, e5]; exact h.rep
    · rw [hat, e6]; exact h.nofix
    · rw [hat, ef]; rfl

/-! ## All decorators -/

theorem inv_define (st : St) (name : Nat) (args : List Nat) (gen : Bool) :
    Inv st.next name args gen [] (define st name args gen).1 (define st name args gen).2 := by
  have e : (define st name args gen).1.fn st.next = { name := name, args := args, body := .base gen } := put_new _ _ _
  show Inv st.next name args gen [] (define st name args gen).1 st.next
  refine Inv.mk (Nat.lt_succ_self _) (Nat.le_refl _) (by rw [e]) (by rw [e]) (by rw [e]) ?_ ?_ ?_ ?_ ?_ ?_ ?_ ?_ ?_ ?_ ?_ ?_
  · exact ⟨[], .base (by rw [e]), rfl, by rw [e]; rfl, by simp [fixesIn], by simp, by simp⟩
  · exact ⟨st.next, 0, .here (by rw [e]), by rw [e]; simp [isGen, direct]⟩
  · rw [e]; simp [decls, fixesIn]
  · rw [e]; exact .inl ⟨rfl, rfl⟩
  · rw [e]; exact .inl ⟨rfl, by simp⟩
  · rw [e]; exact .inl ⟨rfl, rfl⟩
  · rw [e]; exact .inl ⟨rfl, rfl⟩
  · rw [e]; intro r q h; cases h
  · rw [e]; rfl
  · rw [e]; rfl
  · rw [e]; rfl
  · rw [e]; rfl

theorem inv_apply {b name : Nat} {args : List Nat} {gen : Bool} {ds : List Deco} {st : St} {f : Nat} {d : Deco} (h : Inv b name args gen ds st f)
    (hp : ∀ n vs, d = .parametrize n vs → n ∉ (decls ds).map (·.1)) (ht : ∀ n v, d = .tag n v → ∀ w, .tag n w ∈ ds → w = v)
    (hx : ∀ n s a, d = .fixture n s a → fixesIn ds = []) :
    ∃ st' f', apply st f d = some (st', f') ∧ Inv b name args gen (ds ++ [d]) st' f' := by
  cases d with
  | parametrize n vs => exact h.parametrized (hp n vs rfl)
  | tag n v =>
    obtain ⟨st', h1, h2⟩ := h.tagged (ht n v rfl)
    exact ⟨st', f, h1, h2⟩
  | requires q =>
    obtain ⟨h1, h2⟩ := h.required (q := q)
    exact ⟨_, f, congrArg some (Prod.ext rfl h1), h2⟩
  | exclude x => exact ⟨_, f, rfl, h.marker.1 x⟩
  | «repeat» n => exact ⟨_, f, rfl, h.marker.2.1 n⟩
  | useFixtures l =>
    obtain ⟨h1, h2⟩ := h.using (l := l)
    exact ⟨_, f, congrArg some (Prod.ext rfl h1), h2⟩
  | nofixtures => exact ⟨_, f, rfl, h.marker.2.2⟩
  | fixture n s a => exact ⟨_, _, rfl, h.fixtured n s a (hx n s a rfl)⟩
  | user x => exact ⟨_, _, rfl, h.byUser x⟩

theorem inv_decorate {b name : Nat} {args : List Nat} {gen : Bool} (es : List Deco) : ∀ (ds : List Deco) (st : St) (f : Nat),
    Inv b name args gen ds st f → Once (ds ++ es) → ∃ st' f', decorate st f es = some (st', f') ∧ Inv b name args gen (ds ++ es) st' f' := by
  induction es with
  | nil => intro ds st f h _; exact ⟨st, f, rfl, by simpa using h⟩
  | cons d es ih =>
    intro ds st f h ho
    obtain ⟨st1, f1, h1, h2⟩ := inv_apply (d := d) h
      (by
        rintro n vs rfl
        have := ho.params
        rw [show decls (ds ++ .parametrize n vs :: es) = decls ds ++ (n, vs) :: decls es by simp [decls], List.map_append, List.nodup_append] at this
        exact fun hm => this.2.2 n hm n (by simp) rfl)
      (by
        rintro n v rfl w hw
        exact ho.tags n w v (by simp [hw]) (by simp))
      (by
        rintro n s a rfl
        have := ho.fixes
        rw [show fixesIn (ds ++ .fixture n s a :: es) = fixesIn ds ++ (n, s, a) :: fixesIn es by simp [fixesIn], List.length_append, List.length_cons] at this
        exact List.length_eq_zero_iff.1 (by omega))
    obtain ⟨st2, f2, h3, h4⟩ := ih (ds ++ [d]) st1 f1 h2 (by rw [List.append_assoc]; exact ho)
    rw [List.append_assoc] at h4
    refine ⟨st2, f2, ?_, h4⟩
    show (apply st f d).bind (fun x => decorate x.1 x.2 es) = _
    rw [h1]
    exact h3

/-- A function is defined, with decorators, the lowest first. -/
def make (st : St) (name : Nat) (args : List Nat) (gen : Bool) (ds : List Deco) : Option (St × Nat) :=
  decorate (define st name args gen).1 (define st name args gen).2 ds

theorem inv_make (st : St) (name : Nat) (args : List Nat) (gen : Bool) {ds : List Deco} (h : Once ds) :
    ∃ st' f, make st name args gen ds = some (st', f) ∧ Inv st.next name args gen ds st' f := by
  have := inv_decorate (b := st.next) (name := name) (args := args) (gen := gen) ds [] _ _ (inv_define st name args gen) (by simpa using h)
  simp only [List.nil_append] at this
  exact this

theorem find_key {l : List (Nat × List Nat)} (hl : (l.map (·.1)).Nodup) (n : Nat) (e : Nat × List Nat) :
    l.find? (fun e => e.1 == n) = some e ↔ e ∈ l ∧ e.1 = n := by
  induction l with
  | nil => simp
  | cons x l ih =>
    rw [List.map_cons, List.nodup_cons] at hl
    rw [List.find?_cons, List.mem_cons]
    by_cases hx : x.1 = n
    · rw [show (x.1 == n) = true by simpa using hx]
      dsimp only
      constructor
      · intro h; cases h; exact ⟨.inl rfl, hx⟩
      · rintro ⟨h1 | h1, h2⟩
        · rw [h1]
        · exact absurd (List.mem_map.2 ⟨e, h1, h2.trans hx.symm⟩) hl.1
    · rw [show (x.1 == n) = false by simpa using hx]
      dsimp only
      rw [ih hl.2]
      constructor
      · rintro ⟨h1, h2⟩; exact ⟨.inr h1, h2⟩
      · rintro ⟨h1 | h1, h2⟩
        · subst h1; exact absurd h2 hx
        · exact ⟨h1, h2⟩

theorem iterParams_kept {args : List Nat} {l : List (Nat × List Nat)} (ha : args.Nodup) (hl : (l.map (·.1)).Nodup) :
    (iterParams (kept args l)).Perm l ∧
      ((iterParams (kept args l)).map (·.1)).filter (fun n => args.contains n) = args.filter (fun n => (l.map (·.1)).contains n) := by
  have hs : ∀ q : Nat × List Nat → Bool, ((l.filter q).map (·.1)).Nodup := fun q => (List.filter_sublist.map _).nodup hl
  have hln : l.Nodup := by
    rw [List.nodup_iff_pairwise_ne] at hl ⊢
    rw [List.pairwise_map] at hl
    exact hl.imp (fun h e => h (by rw [e]))
  -- the parameters that are arguments
  have hm : ∀ e, e ∈ args.filterMap (fun n => (l.filter (fun e => args.contains e.1)).find? (fun e => e.1 == n)) ↔ e ∈ l.filter (fun e => args.contains e.1) := by
    intro e
    rw [List.mem_filterMap]
    constructor
    · rintro ⟨n, -, h⟩; exact ((find_key (hs _) n e).1 h).1
    · intro h
      exact ⟨e.1, by simpa using (List.mem_filter.1 h).2, (find_key (hs _) e.1 e).2 ⟨h, rfl⟩⟩
  have hkeys : (args.filterMap (fun n => (l.filter (fun e => args.contains e.1)).find? (fun e => e.1 == n))).map (·.1) =
      args.filter (fun n => (l.map (·.1)).contains n) := by
    have gen : ∀ as : List Nat, (∀ n ∈ as, n ∈ args) →
        (as.filterMap (fun n => (l.filter (fun e => args.contains e.1)).find? (fun e => e.1 == n))).map (·.1) = as.filter (fun n => (l.map (·.1)).contains n) := by
      intro as
      induction as with
      | nil => intro _; rfl
      | cons n as ih =>
        intro hin
        have hin' := ih (fun m hm => hin m (by simp [hm]))
        rcases hf : (l.filter (fun e => args.contains e.1)).find? (fun e => e.1 == n) with _ | e
        · rw [List.filterMap_cons]
          simp only [hf]
          rw [hin', List.filter_cons_of_neg]
          intro hc
          rw [List.contains_iff_mem, List.mem_map] at hc
          obtain ⟨e, he, hn⟩ := hc
          have : e ∈ l.filter (fun e => args.contains e.1) := List.mem_filter.2 ⟨he, by simpa [hn] using hin n (by simp)⟩
          rw [(find_key (hs _) n e).2 ⟨this, hn⟩] at hf
          cases hf
        · obtain ⟨h1, h2⟩ := (find_key (hs _) n e).1 hf
          rw [List.filterMap_cons]
          simp only [hf]
          rw [List.map_cons, hin', List.filter_cons_of_pos, h2]
          rw [List.contains_iff_mem, List.mem_map]
          exact ⟨e, (List.mem_filter.1 h1).1, h2⟩
    exact gen args (fun n hn => hn)
  have hnd : (args.filterMap (fun n => (l.filter (fun e => args.contains e.1)).find? (fun e => e.1 == n))).Nodup := by
    have : ((args.filterMap (fun n => (l.filter (fun e => args.contains e.1)).find? (fun e => e.1 == n))).map (·.1)).Nodup := by
      rw [hkeys]; exact List.filter_sublist.nodup ha
    rw [List.nodup_iff_pairwise_ne] at this ⊢
    rw [List.pairwise_map] at this
    exact this.imp (fun h e => h (by rw [e]))
  constructor
  · have p1 : (args.filterMap (fun n => (l.filter (fun e => args.contains e.1)).find? (fun e => e.1 == n))).Perm (l.filter (fun e => args.contains e.1)) :=
      (List.perm_ext_iff_of_nodup hnd (List.filter_sublist.nodup hln)).2 hm
    exact (p1.append_right _).trans (List.filter_append_perm _ l)
  · unfold iterParams
    rw [List.map_append, List.filter_append]
    have h2 : ((kept args l).extra.map (·.1)).filter (fun n => args.contains n) = [] := by
      rw [List.filter_eq_nil_iff]
      intro n hn
      obtain ⟨e, he, hx⟩ := List.mem_map.1 hn
      have := (List.mem_filter.1 he).2
      rw [← hx]
      simpa using this
    rw [h2, List.append_nil]
    show ((args.filterMap (fun n => (l.filter (fun e => args.contains e.1)).find? (fun e => e.1 == n))).map (·.1)).filter _ = _
    rw [hkeys, List.filter_filter]
    refine List.filter_congr (fun n hn => ?_)
    simp [hn]

/-! ## What is found -/

/-- A function with decorators has all that they say: it is found at the function, each declaration once, in the order of the decorators; the
parameters that are arguments in the order of the arguments. -/
theorem C178_seen (st : St) (name : Nat) (args : List Nat) (gen : Bool) (ds : List Deco) (h : Once ds) (ha : args.Nodup) :
    ∃ st' f, make st name args gen ds = some (st', f) ∧ (seen st' f).params.Perm (decls ds) ∧
      ((seen st' f).params.map (·.1)).filter (fun n => args.contains n) = args.filter (fun n => ((decls ds).map (·.1)).contains n) ∧
      (∀ n v, (n, v) ∈ (seen st' f).tags ↔ .tag n v ∈ ds) ∧ ((seen st' f).tags.map (·.1)).Nodup ∧
      (seen st' f).reqs = reqsIn ds ∧ (seen st' f).excl = exclIn ds ∧ (seen st' f).rep = (repsIn ds).head? ∧ (seen st' f).extra = extraIn ds ∧
      ((seen st' f).nofix = true ↔ .nofixtures ∈ ds) ∧ (seen st' f).info = (fixesIn ds).head?.map (fun x => ⟨x.1.getD name, x.2.1, x.2.2, args⟩) := by
  obtain ⟨st', f, h1, hi⟩ := inv_make st name args gen h
  refine ⟨st', f, h1, ?_⟩
  have hpar : (seen st' f).params.Perm (decls ds) ∧
      ((seen st' f).params.map (·.1)).filter (fun n => args.contains n) = args.filter (fun n => ((decls ds).map (·.1)).contains n) := by
    rcases hi.params with ⟨p1, p2⟩ | ⟨r, p1, p2, p3, p4⟩
    · have : (seen st' f).params = [] := by simp only [seen, p1]
      rw [this, p2]
      refine ⟨.refl _, ?_⟩
      simp
    · have : (seen st' f).params = iterParams (kept args (decls ds)) := by simp only [seen, p1, p4]; rfl
      rw [this]
      exact iterParams_kept ha h.params
  refine ⟨hpar.1, hpar.2, ?_, ?_, ?_, hi.excl, ?_, ?_, ?_, hi.info⟩
  · rcases hi.tags with ⟨t1, t2⟩ | ⟨r, t1, t2, t3, t4⟩
    · simp [seen, t1, t2]
    · simpa [seen, t1] using t3
  · rcases hi.tags with ⟨t1, t2⟩ | ⟨r, t1, t2, t3, t4⟩
    · simp [seen, t1]
    · simpa [seen, t1] using t4
  · show (Deco.reqsOf st' f).1 = _
    rw [hi.reqsOf]
  · show (st'.fn f).attrs.rep = _
    rw [hi.rep]
    have := h.reps
    rcases hr : repsIn ds with _ | ⟨x, _ | ⟨y, l⟩⟩
    · rfl
    · rfl
    · rw [hr] at this; simp at this
  · rcases hi.extra with ⟨t1, t2⟩ | ⟨r, t1, t2, t3⟩
    · simp [seen, t1, t2]
    · simpa [seen, t1] using t3
  · show (st'.fn f).attrs.nofix = true ↔ _
    rw [hi.nofix, List.contains_iff_mem]

theorem once_perm {ds ds' : List Deco} (hp : ds.Perm ds') (h : Once ds) : Once ds' := by
  refine ⟨?_, fun n v w h1 h2 => h.tags n v w (hp.mem_iff.2 h1) (hp.mem_iff.2 h2), ?_, ?_⟩
  · exact (((hp.filterMap _).map _).nodup_iff).1 h.params
  · have := (hp.filterMap (fun | .repeat n => some n | _ => none)).length_eq
    have h2 := h.reps
    unfold repsIn at *
    omega
  · have := (hp.filterMap (fun | .fixture n s a => some (n, s, a) | _ => none)).length_eq
    have h2 := h.fixes
    unfold fixesIn at *
    omega

theorem head_perm {α : Type} {l l' : List α} (hp : l.Perm l') (h : l.length ≤ 1) : l.head? = l'.head? := by
  rcases l with _ | ⟨x, _ | ⟨y, l⟩⟩
  · rw [hp.nil_eq]
  · rw [List.singleton_perm.1 hp]
  · simp at h

/-- The order of the decorators does not matter: whatever is written in between, and wherever the functions are, slash finds the same of them. -/
theorem C178_order (st st2 : St) (name : Nat) (args : List Nat) (gen : Bool) (ds ds' : List Deco) (hp : ds.Perm ds') (h : Once ds) (ha : args.Nodup) :
    ∃ st' f st'' f', make st name args gen ds = some (st', f) ∧ make st2 name args gen ds' = some (st'', f') ∧
      (seen st' f).params.Perm (seen st'' f').params ∧
      ((seen st' f).params.map (·.1)).filter (fun n => args.contains n) = ((seen st'' f').params.map (·.1)).filter (fun n => args.contains n) ∧
      (seen st' f).tags.Perm (seen st'' f').tags ∧ (seen st' f).reqs.Perm (seen st'' f').reqs ∧ (seen st' f).excl.Perm (seen st'' f').excl ∧
      (seen st' f).rep = (seen st'' f').rep ∧ (seen st' f).extra.Perm (seen st'' f').extra ∧ (seen st' f).nofix = (seen st'' f').nofix ∧
      (seen st' f).info = (seen st'' f').info := by
  obtain ⟨s1, f1, m1, p1, o1, t1, n1, q1, x1, r1, e1, z1, i1⟩ := C178_seen st name args gen ds h ha
  obtain ⟨s2, f2, m2, p2, o2, t2, n2, q2, x2, r2, e2, z2, i2⟩ := C178_seen st2 name args gen ds' (once_perm hp h) ha
  refine ⟨s1, f1, s2, f2, m1, m2, ?_, ?_, ?_, ?_, ?_, ?_, ?_, ?_, ?_⟩
  · exact p1.trans ((hp.filterMap _).trans p2.symm)
  · rw [o1, o2]
    refine List.filter_congr (fun n _ => ?_)
    rw [Bool.eq_iff_iff, List.contains_iff_mem, List.contains_iff_mem]
    exact ((hp.filterMap _).map _).mem_iff
  · have nd : ∀ {t : Tags}, (t.map (·.1)).Nodup → t.Nodup := by
      intro t hn
      rw [List.nodup_iff_pairwise_ne] at hn ⊢
      rw [List.pairwise_map] at hn
      exact hn.imp (fun h e => h (by rw [e]))
    refine (List.perm_ext_iff_of_nodup (nd n1) (nd n2)).2 (fun e => ?_)
    rw [show e = (e.1, e.2) from rfl, t1, t2, hp.mem_iff]
  · rw [q1, q2]; exact hp.filterMap _
  · rw [x1, x2]; exact hp.filterMap _
  · rw [r1, r2]; exact head_perm (hp.filterMap _) h.reps
  · rw [e1, e2]; exact hp.flatMap_right _
  · rw [Bool.eq_iff_iff, z1, z2, hp.mem_iff]
  · have : (fixesIn ds).head? = (fixesIn ds').head? := head_perm (hp.filterMap _) h.fixes
    rw [i1, i2, this]

/-! ## Saying it twice -/

theorem filterMap_same {α β : Type} {g g' : α → Option β} {l : List α} (h : ∀ x ∈ l, g x = g' x) : l.filterMap g = l.filterMap g' := by
  induction l with
  | nil => rfl
  | cons x l ih =>
    rw [List.filterMap_cons, List.filterMap_cons, h x (by simp), ih (fun y hy => h y (List.mem_cons_of_mem _ hy))]

theorem dset_again {k : Nat} {v : List Nat} {t : List (Nat × List Nat)} (h : (t.map (·.1)).Nodup) (hk : k ∈ t.map (·.1)) :
    dset k v t = t.map (fun e => if e.1 = k then (k, v) else e) := by
  induction t with
  | nil => simp at hk
  | cons e t ih =>
    rw [List.map_cons, List.nodup_cons] at h
    unfold dset
    by_cases he : e.1 = k
    · rw [if_pos he, List.map_cons, if_pos he]
      congr 1
      refine ((List.map_congr_left (fun x hx => ?_)).trans (List.map_id _)).symm
      have : x.1 ≠ k := fun e2 => h.1 (he ▸ e2 ▸ List.mem_map_of_mem hx)
      rw [if_neg this]; rfl
    · rw [if_neg he, List.map_cons, if_neg he, ih h.2]
      rw [List.map_cons, List.mem_cons] at hk
      exact hk.resolve_left (fun e2 => he e2.symm)

/-- Declaring a parameter once more fails if it is an argument; otherwise, the new values replace the old ones, where they are. A tag that has a value is
not given another one. The last number of repetitions counts, and the first declaration as a fixture. -/
theorem C178_twice (st st' : St) (name : Nat) (args : List Nat) (gen : Bool) (ds : List Deco) (f : Nat) (h : Once ds)
    (hm : make st name args gen ds = some (st', f)) :
    (∀ n ws, n ∈ args → n ∈ (decls ds).map (·.1) → apply st' f (.parametrize n ws) = none) ∧
    (∀ n ws, n ∉ args → n ∈ (decls ds).map (·.1) → ∃ st'', apply st' f (.parametrize n ws) = some (st'', f) ∧
      (seen st'' f).params = (seen st' f).params.map (fun e => if e.1 = n then (n, ws) else e)) ∧
    (∀ n v w, .tag n (some v) ∈ ds → w ≠ some v → apply st' f (.tag n w) = none) ∧
    (∀ n, ∃ st'', apply st' f (.repeat n) = some (st'', f) ∧ (seen st'' f).rep = some n) ∧
    (∀ n s a, fixesIn ds ≠ [] → ∃ st'' g, apply st' f (.fixture n s a) = some (st'', g) ∧ (seen st'' g).info = (seen st' f).info) := by
  obtain ⟨sx, fx, h1, hi⟩ := inv_make st name args gen h
  rw [h1] at hm
  cases hm
  refine ⟨fun n ws hn hd => ?_, fun n ws hn hd => ?_, fun n v w ht hw => ?_, fun n => ?_, fun n s a hx => ?_⟩
  · rcases hi.params with ⟨-, p⟩ | ⟨r, p1, -, -, p4⟩
    · rw [p] at hd; simp at hd
    · simp only [apply, parametrize, p1, Option.map_eq_none_iff, addOptions, p4]
      rw [if_pos]
      obtain ⟨e, he, rfl⟩ := List.mem_map.1 hd
      rw [List.any_eq_true]
      exact ⟨e, List.mem_filter.2 ⟨he, by simpa using hn⟩, by simp⟩
  · rcases hi.params with ⟨-, p⟩ | ⟨r, p1, -, -, p4⟩
    · rw [p] at hd; simp at hd
    · have hopt : addOptions (st'.pinfo r) n ws = some { st'.pinfo r with extra := dset n ws (st'.pinfo r).extra } := by
        unfold addOptions
        rw [p4]
        dsimp only
        rw [if_neg, if_neg]
        · simpa using hn
        · rw [List.any_eq_true]
          rintro ⟨e, he, he2⟩
          have := (List.mem_filter.1 he).2
          rw [List.contains_iff_mem] at this
          have e3 : e.1 = n := by simpa using he2
          exact hn (e3 ▸ this)
      simp only [apply, parametrize, p1, hopt, Option.map_some]
      refine ⟨_, rfl, ?_⟩
      simp only [seen, p1, put_new]
      unfold iterParams
      rw [List.map_append]
      congr 1
      · rw [List.map_filterMap]
        refine filterMap_same (fun m hm => ?_)
        rcases hf : (st'.pinfo r).params.find? (fun e => e.1 == m) with _ | e
        · rw [hf]; rfl
        · have e3 : e.1 = m := by simpa using List.find?_some hf
          have ha : m ∈ args := by rw [p4] at hm; exact hm
          rw [hf]
          show some e = some (if e.1 = n then (n, ws) else e)
          have e5 : ¬ e.1 = n := fun e4 => hn (by rw [← e4, e3]; exact ha)
          rw [if_neg e5]
      · rw [p4]
        dsimp only
        rw [dset_again]
        · exact (h.params.sublist (List.Sublist.map _ List.filter_sublist))
        · obtain ⟨e, he, rfl⟩ := List.mem_map.1 hd
          exact List.mem_map_of_mem (List.mem_filter.2 ⟨he, by simpa using hn⟩)
  · rcases hi.tags with ⟨-, p⟩ | ⟨r, p1, -, p3, p4⟩
    · exact absurd ht (p _ _)
    · simp only [apply, tag, p1]
      rw [if_neg]
      have hg : Tag.get (st'.tags r) n = some v := by
        have := get_fine (n := n) (v := some v) (t := st'.tags r) (fun w hw => (h.tags n (some v) w ht ((p3 _ _).1 hw)).symm)
        rcases this with g | g
        · exact g
        · unfold Tag.get at g ⊢
          rcases hf : (st'.tags r).find? (fun e => e.1 == n) with _ | e
          · have := List.find?_eq_none.1 hf _ ((p3 _ _).2 ht)
            simp at this
          · have hm := List.mem_of_find?_eq_some hf
            have hn : e.1 = n := by simpa using List.find?_some hf
            have := h.tags n (some v) e.2 ht ((p3 _ _).1 (hn ▸ hm))
            rw [hf]
            exact this.symm
      rw [hg]
      rintro (e | e)
      · exact hw e.symm
      · cases e
  · refine ⟨_, rfl, ?_⟩
    simp [seen, St.setAttrs, put_new]
  · have hs : ∃ i, (st'.fn f).attrs.info = some i := by
      rw [hi.info]
      rcases hl : fixesIn ds with _ | ⟨x, l⟩
      · exact absurd hl hx
      · exact ⟨_, rfl⟩
    obtain ⟨i, hs⟩ := hs
    have he : ensureInfo st' f n s a = st' := by unfold ensureInfo; rw [hs]
    simp only [apply, fixture, he]
    by_cases hg : Deco.isGen (st'.fn (underlying st' st'.next f)).body = true
    · rw [if_pos hg]
      refine ⟨_, _, rfl, ?_⟩
      simp [seen, wrap, put_new]
    · rw [if_neg hg]
      exact ⟨_, _, rfl, rfl⟩

example : ∃ st f, make {} 7 [0] false [.parametrize 0 [1], .parametrize 3 [2], .tag 1 (some 4), .fixture none 1 true] = some (st, f) ∧
    (apply st f (.parametrize 0 [8])).isNone = true ∧ (apply st f (.tag 1 none)).isNone = true ∧
    ((apply st f (.parametrize 3 [8])).map (fun x => (seen x.1 x.2).params)) = some [(0, [1]), (3, [8])] := by
  refine ⟨_, _, rfl, by decide, by decide, by decide⟩

/-! ## Calls -/

theorem fill_eq (val : Nat → Nat) (ns : List Nat) (hn : ns.Nodup) : ∀ kw : List (Nat × Nat),
    fill val ns kw = kw ++ (ns.filter (fun n => !kw.any (fun e => e.1 == n))).map (fun n => (n, val n)) := by
  induction ns with
  | nil => intro kw; simp [fill]
  | cons n ns ih =>
    intro kw
    rw [List.nodup_cons] at hn
    unfold fill
    rw [ih hn.2]
    by_cases hk : kw.any (fun e => e.1 == n) = true
    · rw [if_pos hk, List.filter_cons_of_neg (by rw [hk]; simp)]
    · rw [if_neg hk]
      rw [Bool.not_eq_true] at hk
      rw [List.filter_cons_of_pos (by rw [hk]; rfl), List.append_assoc, List.map_cons]
      have : ∀ l l' : List Nat, l = l' → [(n, val n)] ++ l.map (fun n => (n, val n)) = (n, val n) :: l'.map (fun n => (n, val n)) := by
        intro l l' e; rw [e]; rfl
      refine congrArg _ (this _ _ ?_)
      refine List.filter_congr (fun m hm => ?_)
      have : n ≠ m := fun e => hn.1 (e ▸ hm)
      rw [List.any_append]
      simp [this]

/-- What comes back from a function started `k` times. -/
def resOf (gen : Bool) : Nat → Res
  | 0 => if gen then .generator else .plain
  | k + 1 => match resOf gen k with | .generator => .yielded | _ => .typeError

/-- Arguments set by the functions around. -/
def fillAll (st : St) (val : Nat → Nat → Nat) (rs : List Nat) (kw : List (Nat × Nat)) : List (Nat × Nat) :=
  rs.foldl (fun kw r => fill (val r) ((iterParams (st.pinfo r)).map (·.1)) kw) kw

theorem call_shape {st : St} {b f : Nat} {l : List Body} {gen : Bool} (val : Nat → Nat → Nat) (s : Shape st b f l) (hb : (st.fn b).body = .base gen)
    (h1 : .base true ∉ l) (h2 : .base false ∉ l) : ∀ n kw, l.length < n →
    call st val n f kw = ⟨l.filterMap userOf, fillAll st val (l.filterMap paramOf) kw, resOf gen (l.count .yields)⟩ := by
  induction s with
  | base h =>
    intro n kw hn
    cases n with
    | zero => omega
    | succ n => simp only [call, hb, h]; rfl
  | @around f g l h hl s ih =>
    intro n kw hn
    cases n with
    | zero => omega
    | succ n =>
      simp only [List.mem_cons, not_or] at h1 h2
      simp only [List.length_cons] at hn
      have ih' := fun kw => ih h1.2 h2.2 n kw (by omega)
      rcases hbd : (st.fn f).body with (_ | _) | r | _ | d
      · exact absurd hbd.symm h2.1
      · exact absurd hbd.symm h1.1
      · simp only [call, hbd, h, ih', List.filterMap_cons, userOf, paramOf]
        rfl
      · simp only [call, hbd, h, ih', List.filterMap_cons, userOf, paramOf, List.count_cons_self]
        rfl
      · simp only [call, hbd, h, ih', List.filterMap_cons, userOf, paramOf]
        rfl

/-- A call of such a function calls each of the functions made by the user's decorators once, from outside, and the function itself with the arguments
given and the values of all parameters that were not given. If it is a generator, it is started exactly if it was declared a fixture and the
lowest of the user's decorators, the parametrizations and this declaration is none of the user's. -/
theorem C178_called (st : St) (name : Nat) (args : List Nat) (gen : Bool) (ds : List Deco) (h : Once ds) (ha : args.Nodup) :
    ∃ st' f, make st name args gen ds = some (st', f) ∧ ∃ r, ∀ val kw, call st' val st'.next f kw =
      ⟨(usersIn ds).reverse,
       kw ++ (((seen st' f).params.map (·.1)).filter (fun n => !kw.any (fun e => e.1 == n))).map (fun n => (n, val r n)),
       if gen then (if fixesIn ds ≠ [] ∧ direct ds = true then .yielded else .generator) else .plain⟩ := by
  obtain ⟨st', f, h1, hi⟩ := inv_make st name args gen h
  obtain ⟨l, s1, s2, s3, s4, s5, s6⟩ := hi.shape
  have hlen := s1.path.short
  have hf := hi.hi
  have hres : resOf gen (l.count .yields) = if gen then (if fixesIn ds ≠ [] ∧ direct ds = true then .yielded else .generator) else .plain := by
    rw [s4]
    cases gen
    · simp [resOf]
    · by_cases hx : fixesIn ds = []
      · simp [hx, resOf]
      · cases direct ds <;> simp [hx, resOf]
  refine ⟨st', f, h1, ?_⟩
  rcases hi.params with ⟨p1, p2⟩ | ⟨r, p1, p2, p3, p4⟩
  · refine ⟨0, fun val kw => ?_⟩
    rw [call_shape val s1 hi.bbody s5 s6 _ _ (by omega), s2, s3, hres, p1]
    have : (seen st' f).params = [] := by simp only [seen, p1]
    rw [this]
    simp [fillAll]
  · refine ⟨r, fun val kw => ?_⟩
    rw [call_shape val s1 hi.bbody s5 s6 _ _ (by omega), s2, s3, hres, p1]
    have hs : (seen st' f).params = iterParams (st'.pinfo r) := by simp only [seen, p1]
    have hk : st'.pinfo r = kept args (decls ds) := p4
    have hnd : ((iterParams (st'.pinfo r)).map (·.1)).Nodup := by
      rw [hk]
      exact (((iterParams_kept ha h.params).1.map _).nodup_iff).2 h.params
    rw [hs]
    simp only [fillAll, Option.toList, List.foldl_cons, List.foldl_nil]
    rw [fill_eq _ _ hnd]

/-- Whatever the order, a fixture written as a generator is started if no decorator of the user's is below its declaration as a fixture (or
one of its parametrizations is below these). -/
theorem C178_generator_partial (st : St) (name : Nat) (args : List Nat) (ds : List Deco) (h : Once ds) (ha : args.Nodup) (hx : fixesIn ds ≠ [])
    (hu : usersIn ds = []) : ∃ st' f, make st name args true ds = some (st', f) ∧ ∀ val kw, (call st' val st'.next f kw).res = .yielded := by
  obtain ⟨st', f, h1, r, h2⟩ := C178_called st name args true ds h ha
  refine ⟨st', f, h1, fun val kw => ?_⟩
  rw [h2]
  have : direct ds = true := by
    unfold direct
    rcases hk : ds.findSome? kindOf with _ | x
    · rfl
    · obtain ⟨d, hd, hd2⟩ := List.exists_of_findSome?_eq_some hk
      cases d with
      | user d =>
        have : d ∈ usersIn ds := List.mem_filterMap.2 ⟨.user d, hd, rfl⟩
        rw [hu] at this
        exact absurd this (by simp)
      | parametrize n vs => simp [kindOf] at hd2; simp [← hd2]
      | fixture n sc a => simp [kindOf] at hd2; simp [← hd2]
      | _ => simp [kindOf] at hd2
  simp only [if_true]
  rw [if_pos ⟨hx, this⟩]

/-- For calls, the order does matter: a fixture written as a generator, with a decorator of the user's (made with `functools.wraps`) below
`slash.fixture`, is not started: the value of the fixture is the generator. -/
theorem C178_generator_violated : ∃ st f st' f', make {} 7 [] true [.fixture none 0 false, .user 5] = some (st, f) ∧
    make {} 7 [] true [.user 5, .fixture none 0 false] = some (st', f') ∧ ∀ val,
      call st val st.next f [] = ⟨[5], [], .yielded⟩ ∧ call st' val st'.next f' [] = ⟨[5], [], .generator⟩ := by
  refine ⟨_, _, _, _, rfl, rfl, fun val => ⟨rfl, rfl⟩⟩

/-! ## A function decorated once more under another name -/

/-- Nothing older than `n` was changed; `P`, `T`, `E`: the object with parameters (tags, fixtures used) of `g` is not older. -/
structure Away (n : Nat) (P T E : Prop) (st0 st : St) (g : Nat) : Prop where
  le : n ≤ g
  next : n ≤ st.next
  fn : ∀ i, i < n → st.fn i = st0.fn i
  pinfo : ∀ i, i < n → st.pinfo i = st0.pinfo i
  tags : ∀ i, i < n → st.tags i = st0.tags i
  list : ∀ i, i < n → st.list i = st0.list i
  params : P → ∀ r, (st.fn g).attrs.params = some r → n ≤ r
  tag : T → ∀ r, (st.fn g).attrs.tags = some r → n ≤ r
  extra : E → ∀ r, (st.fn g).attrs.extra = some r → n ≤ r

theorem put_lt {α : Type} {i j n : Nat} (a : α) (g : Nat → α) (h : n ≤ i) (hj : j < n) : put i a g j = g j := by
  rw [put_old]; omega

theorem Away.setAttrs {n : Nat} {P T E : Prop} {st0 st : St} {g : Nat} (h : Away n P T E st0 st g) (a : Attrs)
    (h1 : a.params = (st.fn g).attrs.params) (h2 : a.tags = (st.fn g).attrs.tags) (h3 : a.extra = (st.fn g).attrs.extra) :
    Away n P T E st0 (st.setAttrs g a) g := by
  refine ⟨h.le, h.next, fun i hi => ?_, h.pinfo, h.tags, h.list, ?_, ?_, ?_⟩
  · show put g _ st.fn i = _
    rw [put_lt _ _ h.le hi, h.fn i hi]
  · rw [setAttrs_self, h1]; exact h.params
  · rw [setAttrs_self, h2]; exact h.tag
  · rw [setAttrs_self, h3]; exact h.extra

theorem Away.wrap {n : Nat} {P T E : Prop} {st0 st : St} {g : Nat} (h : Away n P T E st0 st g) (B : Body) (a : Attrs)
    (h1 : a.params = (st.fn g).attrs.params) (h2 : a.tags = (st.fn g).attrs.tags) (h3 : a.extra = (st.fn g).attrs.extra) :
    Away n P T E st0 (wrap st g B a).1 (wrap st g B a).2 := by
  refine ⟨h.next, Nat.le_succ_of_le h.next, fun i hi => ?_, h.pinfo, h.tags, h.list, ?_, ?_, ?_⟩
  · show put st.next _ st.fn i = _
    rw [put_lt _ _ h.next hi, h.fn i hi]
  all_goals
    simp only [Deco.wrap, put_new]
  · rw [h1]; exact h.params
  · rw [h2]; exact h.tag
  · rw [h3]; exact h.extra

theorem Away.ensureInfo {n : Nat} {P T E : Prop} {st0 st : St} {g : Nat} (h : Away n P T E st0 st g) (m : Option Nat) (s : Nat) (a : Bool) :
    Away n P T E st0 (ensureInfo st g m s a) g := by
  unfold Deco.ensureInfo
  split
  · exact h
  · exact h.setAttrs _ rfl rfl rfl

theorem away_apply {n : Nat} {P T E : Prop} {st0 st st' : St} {g g' : Nat} {d : Deco} (h : Away n P T E st0 st g) (ha : apply st g d = some (st', g'))
    (hr : ∀ r, d ≠ .requires r) (hp : P ∨ ∀ m vs, d ≠ .parametrize m vs) (ht : T ∨ ∀ m v, d ≠ .tag m v) (he : E ∨ ∀ l, d ≠ .useFixtures l) :
    Away n P T E st0 st' g' := by
  cases d with
  | requires r => exact absurd rfl (hr r)
  | exclude x => cases ha; exact h.setAttrs _ rfl rfl rfl
  | «repeat» m => cases ha; exact h.setAttrs _ rfl rfl rfl
  | nofixtures => cases ha; exact h.setAttrs _ rfl rfl rfl
  | user x => cases ha; exact h.wrap _ _ rfl rfl rfl
  | fixture m s a =>
    simp only [apply, Option.some.injEq] at ha
    unfold fixture at ha
    split at ha
    · have := (h.ensureInfo m s a).wrap .yields { ((Deco.ensureInfo st g m s a).fn g).attrs with wraps := some g } rfl rfl rfl
      rw [ha] at this
      exact this
    · cases ha
      exact h.ensureInfo m s a
  | tag m v =>
    have hT : T := ht.resolve_right (fun hh => hh m v rfl)
    simp only [apply, tag] at ha
    rcases hr : (st.fn g).attrs.tags with _ | r
    · simp only [hr] at ha
      cases ha
      refine ⟨h.le, Nat.le_succ_of_le h.next, fun i hi => ?_, h.pinfo, fun i hi => ?_, h.list, ?_, ?_, ?_⟩
      · show put g _ st.fn i = _
        rw [put_lt _ _ h.le hi, h.fn i hi]
      · show put st.next _ st.tags i = _
        rw [put_lt _ _ h.next hi, h.tags i hi]
      all_goals
        simp only [St.setAttrs, put_new]
      · exact h.params
      · intro _ r hr
        cases hr
        exact h.next
      · exact h.extra
    · simp only [hr] at ha
      split at ha
      · cases ha
        refine ⟨h.le, h.next, h.fn, h.pinfo, fun i hi => ?_, h.list, h.params, h.tag, h.extra⟩
        show put r _ st.tags i = _
        rw [put_lt _ _ (h.tag hT r hr) hi, h.tags i hi]
      · cases ha
  | useFixtures l =>
    have hE : E := he.resolve_right (fun hh => hh l rfl)
    simp only [apply, useFixtures, Option.some.injEq] at ha
    rcases hr : (st.fn g).attrs.extra with _ | r
    · simp only [hr] at ha
      cases ha
      refine ⟨h.le, Nat.le_succ_of_le h.next, fun i hi => ?_, h.pinfo, h.tags, fun i hi => ?_, ?_, ?_, ?_⟩
      · show put g _ st.fn i = _
        rw [put_lt _ _ h.le hi, h.fn i hi]
      · show put st.next _ st.list i = _
        rw [put_lt _ _ h.next hi, h.list i hi]
      all_goals
        simp only [St.setAttrs, put_new]
      · exact h.params
      · exact h.tag
      · intro _ r hr
        cases hr
        exact h.next
    · simp only [hr] at ha
      cases ha
      refine ⟨h.le, h.next, h.fn, h.pinfo, h.tags, fun i hi => ?_, h.params, h.tag, h.extra⟩
      show put r _ st.list i = _
      rw [put_lt _ _ (h.extra hE r hr) hi, h.list i hi]
  | parametrize m vs =>
    have hP : P := hp.resolve_right (fun hh => hh m vs rfl)
    simp only [apply, parametrize] at ha
    rcases hr : (st.fn g).attrs.params with _ | r
    · simp only [hr, Option.map_eq_some_iff] at ha
      obtain ⟨p, -, ha⟩ := ha
      cases ha
      have hn := h.next
      refine ⟨Nat.le_succ_of_le h.next, by simp only [Deco.wrap]; omega, fun i hi => ?_, fun i hi => ?_, h.tags, h.list, ?_, ?_, ?_⟩
      · show put (st.next + 1) _ st.fn i = _
        rw [put_lt _ _ (Nat.le_succ_of_le h.next) hi, h.fn i hi]
      · show put st.next _ st.pinfo i = _
        rw [put_lt _ _ h.next hi, h.pinfo i hi]
      all_goals
        simp only [Deco.wrap, put_new]
      · intro _ r hr
        cases hr
        exact h.next
      · exact h.tag
      · exact h.extra
    · simp only [hr, Option.map_eq_some_iff] at ha
      obtain ⟨p, -, ha⟩ := ha
      cases ha
      refine ⟨h.le, h.next, h.fn, fun i hi => ?_, h.tags, h.list, h.params, h.tag, h.extra⟩
      show put r _ st.pinfo i = _
      rw [put_lt _ _ (h.params hP r hr) hi, h.pinfo i hi]

theorem away_decorate {n : Nat} {P T E : Prop} {st0 : St} (es : List Deco) : ∀ {st st' : St} {g g' : Nat}, Away n P T E st0 st g →
    decorate st g es = some (st', g') → (∀ r, .requires r ∉ es) → (P ∨ ∀ m vs, .parametrize m vs ∉ es) → (T ∨ ∀ m v, .tag m v ∉ es) →
    (E ∨ ∀ l, .useFixtures l ∉ es) → Away n P T E st0 st' g' := by
  induction es with
  | nil => intro st st' g g' h hd _ _ _ _; cases hd; exact h
  | cons d es ih =>
    intro st st' g g' h hd hr hp ht he
    simp only [decorate, Option.bind_eq_some_iff] at hd
    obtain ⟨⟨s1, g1⟩, h1, h2⟩ := hd
    refine ih (away_apply h h1 ?_ ?_ ?_ ?_) h2 ?_ ?_ ?_ ?_
    · exact fun r e => hr r (by simp [e])
    · exact hp.imp id (fun hh m vs e => hh m vs (by simp [e]))
    · exact ht.imp id (fun hh m vs e => hh m vs (by simp [e]))
    · exact he.imp id (fun hh m e => hh m (by simp [e]))
    · exact fun r hm => hr r (List.mem_cons_of_mem _ hm)
    · exact hp.imp id (fun hh m vs e => hh m vs (List.mem_cons_of_mem _ e))
    · exact ht.imp id (fun hh m vs e => hh m vs (List.mem_cons_of_mem _ e))
    · exact he.imp id (fun hh m e => hh m (List.mem_cons_of_mem _ e))

theorem extra_apply {st st' : St} {f f' : Nat} {d : Deco} (h : apply st f d = some (st', f')) (hd : ∀ l, d ≠ .useFixtures l)
    (he : (st.fn f).attrs.extra = none) : (st'.fn f').attrs.extra = none := by
  cases d with
  | useFixtures l => exact absurd rfl (hd l)
  | exclude x => cases h; simpa [St.setAttrs, put_new] using he
  | «repeat» x => cases h; simpa [St.setAttrs, put_new] using he
  | nofixtures => cases h; simpa [St.setAttrs, put_new] using he
  | user x => cases h; simpa [wrap, put_new] using he
  | requires q =>
    simp only [apply, Option.some.injEq] at h
    unfold requires at h
    split at h
    · cases h; exact he
    · cases h
      simp only [St.setAttrs, put]
      split
      · rename_i hb; rw [← hb]; exact he
      · exact he
  | fixture m s a =>
    simp only [apply, Option.some.injEq] at h
    have h2 : ((ensureInfo st f m s a).fn f).attrs.extra = none := by
      unfold ensureInfo
      split
      · exact he
      · simpa [St.setAttrs, put_new] using he
    unfold fixture at h
    split at h
    · cases h; simpa [wrap, put_new] using h2
    · cases h; exact h2
  | tag m v =>
    simp only [apply, tag] at h
    split at h
    · split at h
      · cases h; exact he
      · cases h
    · cases h; simpa [St.setAttrs, put_new] using he
  | parametrize m vs =>
    simp only [apply, parametrize] at h
    split at h
    · simp only [Option.map_eq_some_iff] at h
      obtain ⟨p, -, h⟩ := h
      cases h; exact he
    · simp only [Option.map_eq_some_iff] at h
      obtain ⟨p, -, h⟩ := h
      cases h; simpa [wrap, put_new] using he

theorem extra_decorate (es : List Deco) : ∀ {st st' : St} {f f' : Nat}, decorate st f es = some (st', f') → (∀ l, .useFixtures l ∉ es) →
    (st.fn f).attrs.extra = none → (st'.fn f').attrs.extra = none := by
  induction es with
  | nil => intro st st' f f' h _ he; cases h; exact he
  | cons d es ih =>
    intro st st' f f' h hd he
    simp only [decorate, Option.bind_eq_some_iff] at h
    obtain ⟨⟨s1, g1⟩, h1, h2⟩ := h
    exact ih h2 (fun l hl => hd l (List.mem_cons_of_mem _ hl)) (extra_apply h1 (fun l e => hd l (by simp [e])) he)

theorem tags_apply {st st' : St} {f f' : Nat} {d : Deco} (h : apply st f d = some (st', f')) (hd : ∀ n v, d ≠ .tag n v)
    (he : (st.fn f).attrs.tags = none) : (st'.fn f').attrs.tags = none := by
  cases d with
  | tag m v => exact absurd rfl (hd m v)
  | exclude x => cases h; simpa [St.setAttrs, put_new] using he
  | «repeat» x => cases h; simpa [St.setAttrs, put_new] using he
  | nofixtures => cases h; simpa [St.setAttrs, put_new] using he
  | user x => cases h; simpa [wrap, put_new] using he
  | requires q =>
    simp only [apply, Option.some.injEq] at h
    unfold requires at h
    split at h
    · cases h; exact he
    · cases h
      simp only [St.setAttrs, put]
      split
      · rename_i hb; rw [← hb]; exact he
      · exact he
  | fixture m s a =>
    simp only [apply, Option.some.injEq] at h
    have h2 : ((ensureInfo st f m s a).fn f).attrs.tags = none := by
      unfold ensureInfo
      split
      · exact he
      · simpa [St.setAttrs, put_new] using he
    unfold fixture at h
    split at h
    · cases h; simpa [wrap, put_new] using h2
    · cases h; exact h2
  | useFixtures l =>
    simp only [apply, Option.some.injEq] at h
    unfold useFixtures at h
    split at h
    · cases h; exact he
    · cases h; simpa [St.setAttrs, put_new] using he
  | parametrize m vs =>
    simp only [apply, parametrize] at h
    split at h
    · simp only [Option.map_eq_some_iff] at h
      obtain ⟨p, -, h⟩ := h
      cases h; exact he
    · simp only [Option.map_eq_some_iff] at h
      obtain ⟨p, -, h⟩ := h
      cases h; simpa [wrap, put_new] using he

theorem tags_decorate (es : List Deco) : ∀ {st st' : St} {f f' : Nat}, decorate st f es = some (st', f') → (∀ n v, .tag n v ∉ es) →
    (st.fn f).attrs.tags = none → (st'.fn f').attrs.tags = none := by
  induction es with
  | nil => intro st st' f f' h _ he; cases h; exact he
  | cons d es ih =>
    intro st st' f f' h hd he
    simp only [decorate, Option.bind_eq_some_iff] at h
    obtain ⟨⟨s1, g1⟩, h1, h2⟩ := h
    exact ih h2 (fun n v hl => hd n v (List.mem_cons_of_mem _ hl)) (tags_apply h1 (fun n v e => hd n v (by simp [e])) he)

/-- A new function `g` made of `f` by a decorator of the user's or by parametrizing it, and decorated further: `f` stays as it was, both what is found
at it and what a call does, if no requirements are added to `g`, and parameters, tags and fixtures are added only if `f` itself has none. -/
theorem C178_apart_partial (st st1 st2 : St) (name : Nat) (args : List Nat) (gen : Bool) (ds es : List Deco) (d : Deco) (f g : Nat) (h : Once ds)
    (hm : make st name args gen ds = some (st1, f)) (hd : (∃ x, d = .user x) ∨ ∃ n vs, d = .parametrize n vs ∧ decls ds = [])
    (hr : ∀ r, .requires r ∉ es) (hp : decls ds = [] ∨ ∀ n vs, .parametrize n vs ∉ es)
    (ht : (∀ n v, .tag n v ∉ ds) ∨ ∀ n v, .tag n v ∉ es) (hu : (∀ l, .useFixtures l ∉ ds) ∨ ∀ l, .useFixtures l ∉ es)
    (hg : decorate st1 f (d :: es) = some (st2, g)) :
    g ≠ f ∧ seen st2 f = seen st1 f ∧ ∀ val kw, call st2 val st2.next f kw = call st1 val st1.next f kw := by
  obtain ⟨sx, fx, h1, hi⟩ := inv_make st name args gen h
  rw [h1] at hm
  cases hm
  simp only [decorate, Option.bind_eq_some_iff] at hg
  obtain ⟨⟨s, g1⟩, hg1, hg2⟩ := hg
  have nP : decls ds = [] → (st1.fn f).attrs.params = none := by
    intro e
    rcases hi.params with ⟨p, -⟩ | ⟨r, -, -, p, -⟩
    · exact p
    · exact absurd e p
  have nE : (∀ l, .useFixtures l ∉ ds) → (st1.fn f).attrs.extra = none := by
    intro e
    unfold make at h1
    refine extra_decorate ds h1 e ?_
    simp [define, put_new]
  have hi2 := hi.hi
  have hpar : ∀ m vs, decls ds = [] → parametrize st1 f m vs = some (s, g1) → Away st1.next (decls ds = []) ((st1.fn f).attrs.tags = none) (∀ l, .useFixtures l ∉ ds) st1 s g1 := by
    intro m vs hn ha
    simp only [parametrize, nP hn, Option.map_eq_some_iff] at ha
    obtain ⟨p, -, ha⟩ := ha
    cases ha
    refine ⟨Nat.le_succ _, by simp only [Deco.wrap]; omega, fun i hi => ?_, fun i hi => ?_, fun _ _ => rfl, fun _ _ => rfl, ?_, ?_, ?_⟩
    · show put (st1.next + 1) _ st1.fn i = _
      rw [put_lt _ _ (Nat.le_succ _) hi]
    · show put st1.next _ st1.pinfo i = _
      rw [put_lt _ _ (Nat.le_refl _) hi]
    all_goals
      simp only [Deco.wrap, put_new]
    · intro _ r hr
      cases hr
      exact Nat.le_refl _
    · intro e r hr; rw [e] at hr; cases hr
    · intro e r hr; rw [nE e] at hr; cases hr
  have start : Away st1.next (decls ds = []) ((st1.fn f).attrs.tags = none) (∀ l, .useFixtures l ∉ ds) st1 s g1 := by
    rcases hd with ⟨x, rfl⟩ | ⟨m, vs, rfl, hn⟩
    · cases hg1
      refine ⟨Nat.le_refl _, Nat.le_succ _, fun i hi => ?_, fun _ _ => rfl, fun _ _ => rfl, fun _ _ => rfl, ?_, ?_, ?_⟩
      · show put st1.next _ st1.fn i = _
        rw [put_lt _ _ (Nat.le_refl _) hi]
      all_goals
        simp only [Deco.wrap, put_new]
      · intro e r hr; rw [nP e] at hr; cases hr
      · intro e r hr; rw [e] at hr; cases hr
      · intro e r hr; rw [nE e] at hr; cases hr
    · exact hpar m vs hn hg1
  have nT : (∀ n v, .tag n v ∉ ds) → (st1.fn f).attrs.tags = none ∨ ∀ n v, .tag n v ∉ es := by
    intro e
    unfold make at h1
    refine .inl (tags_decorate ds h1 e ?_)
    simp [define, put_new]
  have aw := away_decorate es start hg2 hr hp (ht.elim nT Or.inr) hu
  have hf : st2.fn f = st1.fn f := aw.fn f hi2
  obtain ⟨l, s1, l2, l3, l4, l5, l6⟩ := hi.shape
  have s2 : Shape st2 _ f l := s1.congr (fun i hi => by rw [aw.fn i (by omega)]; exact ⟨rfl, rfl⟩)
  have hlen := s1.path.short
  have hn := aw.next
  have hb := hi.low
  refine ⟨fun e => ?_, ?_, fun val kw => ?_⟩
  · have := aw.le
    omega
  · have hbot : ∀ (x : St), Shape x st.next f l → f < x.next → Deco.bottom x x.next f = st.next := fun x hx hlt => bottom_path hx.path _ (by omega)
    have hq : (Deco.reqsOf st2 f).1 = (Deco.reqsOf st1 f).1 := by
      unfold Deco.reqsOf
      rw [hbot st2 s2 (by omega), hbot st1 s1 hi2]
      simp only [aw.fn st.next (by omega)]
      rcases hi.reqs with ⟨q1, -⟩ | ⟨r, q1, q2, -⟩
      · simp only [q1]
      · simp only [q1, aw.list r q2]
    simp only [seen, hf, hq, Seen.mk.injEq, and_true, true_and]
    refine ⟨?_, ?_, ?_⟩
    · rcases hi.params with ⟨q1, -⟩ | ⟨r, q1, q2, -⟩
      · simp only [q1]
      · simp only [q1, aw.pinfo r q2]
    · rcases hi.tags with ⟨q1, -⟩ | ⟨r, q1, q2, -⟩
      · simp only [q1]
      · simp only [q1, aw.tags r q2]
    · rcases hi.extra with ⟨q1, -⟩ | ⟨r, q1, q2, -⟩
      · simp only [q1]
      · simp only [q1, aw.list r q2]
  · rw [call_shape val s1 hi.bbody l5 l6 _ _ (by omega), call_shape val s2 (by rw [aw.fn _ (by omega)]; exact hi.bbody) l5 l6 _ _ (by omega), l3]
    rcases hi.params with ⟨q1, -⟩ | ⟨r, q1, q2, -⟩
    · simp only [q1, fillAll, Option.toList]; rfl
    · simp only [q1, fillAll, Option.toList, List.foldl_cons, List.foldl_nil, aw.pinfo r q2]

/-- Otherwise `f` does change: a tag given to `g` is also one of `f` if `f` had another tag; a requirement of `g` is always one of `f`; fixtures used by
`g` are used by `f` if `f` uses another one; and so on for parameters. -/
theorem C178_shared_violated :
    (∃ st1 f st2 g, make {} 7 [] false [.tag 1 none] = some (st1, f) ∧ decorate st1 f [.user 5, .tag 2 none] = some (st2, g) ∧ g ≠ f ∧
      (seen st1 f).tags = [(1, none)] ∧ (seen st2 f).tags = [(1, none), (2, none)]) ∧
    (∃ st1 f st2 g, make {} 7 [] false [] = some (st1, f) ∧ decorate st1 f [.user 5, .requires 3] = some (st2, g) ∧ g ≠ f ∧
      (seen st1 f).reqs = [] ∧ (seen st2 f).reqs = [3]) ∧
    (∃ st1 f st2 g, make {} 7 [] false [.useFixtures [1]] = some (st1, f) ∧ decorate st1 f [.user 5, .useFixtures [2]] = some (st2, g) ∧ g ≠ f ∧
      (seen st1 f).extra = [1] ∧ (seen st2 f).extra = [1, 2]) ∧
    ∃ st1 f st2 g, make {} 7 [0, 1] false [.parametrize 1 [5]] = some (st1, f) ∧ decorate st1 f [.user 5, .parametrize 0 [6]] = some (st2, g) ∧ g ≠ f ∧
      (seen st1 f).params = [(1, [5])] ∧ (seen st2 f).params = [(0, [6]), (1, [5])] := by
  refine ⟨⟨_, _, _, _, rfl, rfl, by decide, by decide, by decide⟩, ⟨_, _, _, _, rfl, rfl, by decide, by decide, by decide⟩,
    ⟨_, _, _, _, rfl, rfl, by decide, by decide, by decide⟩, ⟨_, _, _, _, rfl, rfl, by decide, by decide, by decide⟩⟩

/-- A generator with arguments 0 and 1: decorators in two orders. -/
def sample : List Deco := [.user 5, .tag 1 none, .parametrize 1 [5, 6], .requires 3, .fixture none 2 true, .exclude 9, .parametrize 0 [7], .useFixtures [4]]
/-- The same ones. -/
def sample2 : List Deco := [.parametrize 0 [7], .exclude 9, .requires 3, .user 5, .fixture none 2 true, .parametrize 1 [5, 6], .useFixtures [4], .tag 1 none]

theorem sample_once : Once sample := by
  refine ⟨by decide, ?_, by decide, by decide⟩
  intro n v w h1 h2
  simp only [sample, List.mem_cons, List.not_mem_nil, or_false, false_or, Deco.tag.injEq, reduceCtorEq] at h1 h2
  rw [h1.2, h2.2]

example : ∃ st' f, make {} 7 [0, 1] true sample = some (st', f) ∧ (seen st' f).params = [(0, [7]), (1, [5, 6])] ∧ (seen st' f).tags = [(1, none)] ∧
    (seen st' f).reqs = [3] ∧ (seen st' f).excl = [9] ∧ (seen st' f).extra = [4] ∧ (seen st' f).info = some ⟨7, 2, true, [0, 1]⟩ ∧
    ∀ val, call st' val st'.next f [(1, 8)] = ⟨[5], [(1, 8), (0, val 3 0)], .generator⟩ := by
  refine ⟨_, _, rfl, by decide, by decide, by decide, by decide, by decide, by decide, ?_⟩
  intro val
  rfl

example : sample.Perm sample2 ∧ Once sample ∧ [0, 1].Nodup := ⟨by decide, sample_once, by decide⟩

example : ∃ st' f, make {} 7 [0, 1] true sample2 = some (st', f) ∧ (seen st' f).params = [(0, [7]), (1, [5, 6])] ∧
    ∀ val, (call st' val st'.next f []).res = .yielded := by
  refine ⟨_, _, rfl, by decide, fun val => rfl⟩

example : fixesIn [.fixture none 0 false, .tag 1 none] ≠ [] ∧ usersIn [.fixture none 0 false, .tag 1 none] = [] := by decide

example : ∃ st1 f st2 g, make {} 7 [0, 1] false [.tag 1 none] = some (st1, f) ∧
    decorate st1 f [.parametrize 0 [4], .useFixtures [2], .exclude 3, .repeat 5] = some (st2, g) ∧ seen st2 g ≠ seen st1 f := by
  refine ⟨_, _, _, _, rfl, rfl, by decide⟩

end Slash.Deco
