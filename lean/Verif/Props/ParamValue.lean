import Verif.Model.ParamValue
import Verif.Lemmas.Util
/-!
# Values of parameters: property C145
-/
namespace Slash.PV
open Slash.Meta (Str Label)

/-! ## Lemmas -/

theorem lookup_dset {α : Type} (k n : Str) (v : α) (l : List (Str × α)) : (dset k v l).lookup n = if n = k then some v else l.lookup n := by
  induction l with
  | nil =>
    by_cases h : n = k
    · subst h; simp [dset]
    · have : (n == k) = false := by simpa using h
      simp [dset, List.lookup_cons, this, h]
  | cons e l ih =>
    obtain ⟨a, b⟩ := e
    simp only [dset]
    split
    · rename_i ha
      have ha : a = k := ha
      subst ha
      by_cases h : n = a
      · subst h; simp
      · have : (n == a) = false := by simpa using h
        simp [List.lookup_cons, this, h]
    · rename_i ha
      have ha : a ≠ k := ha
      by_cases h : n = a
      · subst h; simp [List.lookup_cons, ha]
      · have : (n == a) = false := by simpa using h
        rw [List.lookup_cons, this, List.lookup_cons, this]
        exact ih

theorem keys_dset {α : Type} (k : Str) (v : α) (l : List (Str × α)) : (dset k v l).map (·.1) = if k ∈ l.map (·.1) then l.map (·.1) else l.map (·.1) ++ [k] := by
  induction l with
  | nil => simp [dset]
  | cons e l ih =>
    simp only [dset]
    split
    · rename_i h
      subst h; simp
    · rename_i h
      rw [List.map_cons, ih]
      have h' : k ≠ e.1 := fun h' => h h'.symm
      by_cases hk : k ∈ l.map (·.1)
      · rw [if_pos hk]; rw [if_pos]
        · rfl
        · rw [List.map_cons]; exact List.mem_cons_of_mem _ hk
      · rw [if_neg hk, if_neg]
        · rfl
        · rw [List.map_cons, List.mem_cons]
          exact fun h'' => h''.elim h' hk

/-- What a name is parametrized by. -/
def Info.par (i : Info) (n : Str) : Option Par := if n ∈ i.args then i.params.lookup n else i.extra.lookup n

/-- The dictionaries are as `add_options` leaves them. -/
structure Info.Ok (i : Info) : Prop where
  args : i.args.Nodup
  extra : (i.extra.map (·.1)).Nodup
  disjoint : ∀ e ∈ i.extra, e.1 ∉ i.args

/-- the parametrization a name gets -/
def Par.at (p : Par) (multi : Bool) (j : Nat) : Par := if multi then { p with comp := some j } else p

theorem setOne_args (p : Par) (multi : Bool) (i : Info) (m : Str) (j : Nat) : (i.setOne p multi m j).args = i.args := by
  unfold Info.setOne
  simp only
  split <;> rfl

theorem setOne_par (p : Par) (multi : Bool) (i : Info) (m n : Str) (j : Nat) :
    (i.setOne p multi m j).par n = if n = m then some (p.at multi j) else i.par n := by
  unfold Info.par
  rw [setOne_args]
  unfold Info.setOne Par.at
  simp only
  by_cases hm : m ∈ i.args
  · rw [if_pos hm]
    by_cases hn : n = m
    · subst hn
      simp only [hm, if_true, lookup_dset]
    · rw [if_neg hn]
      simp only [lookup_dset, if_neg hn]
  · rw [if_neg hm]
    by_cases hn : n = m
    · subst hn
      simp only [hm, if_false, if_true, lookup_dset]
    · rw [if_neg hn]
      simp only [lookup_dset, if_neg hn]

theorem setOne_ok (p : Par) (multi : Bool) (i : Info) (m : Str) (j : Nat) (h : i.Ok) : (i.setOne p multi m j).Ok := by
  unfold Info.setOne
  simp only
  split
  · exact ⟨h.args, h.extra, h.disjoint⟩
  · rename_i hm
    refine ⟨h.args, ?_, ?_⟩
    · simp only
      rw [keys_dset]
      split
      · exact h.extra
      · rename_i hk
        rw [List.nodup_append]
        refine ⟨h.extra, by simp, ?_⟩
        intro a ha b hb e
        rw [List.mem_singleton] at hb
        exact hk (by rw [← hb, ← e]; exact ha)
    · intro e he
      have hk : e.1 ∈ (dset m (if multi = true then { p with comp := some j } else p) i.extra).map (·.1) := List.mem_map_of_mem he
      rw [keys_dset] at hk
      split at hk
      · obtain ⟨x, hx, hxe⟩ := List.mem_map.1 hk
        rw [← hxe]; exact h.disjoint x hx
      · rcases List.mem_append.1 hk with hk | hk
        · obtain ⟨x, hx, hxe⟩ := List.mem_map.1 hk
          rw [← hxe]; exact h.disjoint x hx
        · rw [List.mem_singleton.1 hk]; exact hm

theorem setAll_spec (p : Par) (multi : Bool) (ns : List Str) (index : Nat) (i : Info) (h : i.Ok) :
    (i.setAll p multi index ns).args = i.args ∧ (i.setAll p multi index ns).Ok ∧
    (∀ n, n ∉ ns → (i.setAll p multi index ns).par n = i.par n) ∧
    (∀ (j : Nat) (n : Str), ns[j]? = some n → n ∉ ns.drop (j + 1) → (i.setAll p multi index ns).par n = some (p.at multi (index + j))) := by
  induction ns generalizing index i with
  | nil => exact ⟨rfl, h, fun n _ => rfl, fun j n hj => by simp at hj⟩
  | cons m ns ih =>
    obtain ⟨h1, h2, h3, h4⟩ := ih (index + 1) (i.setOne p multi m index) (setOne_ok p multi i m index h)
    refine ⟨h1.trans (setOne_args ..), h2, fun n hn => ?_, fun j n hj hd => ?_⟩
    · rw [List.mem_cons, not_or] at hn
      exact (h3 n hn.2).trans ((setOne_par ..).trans (if_neg hn.1))
    · cases j with
      | zero =>
        simp only [List.getElem?_cons_zero, Option.some.injEq] at hj
        subst hj
        have hd' : m ∉ ns := by simpa using hd
        exact (h3 m hd').trans ((setOne_par ..).trans (if_pos rfl))
      | succ j =>
        have := h4 j n (by simpa using hj) (by simpa using hd)
        rw [show index + 1 + j = index + (j + 1) by omega] at this
        exact this

theorem addOptions_ok {i i' : Info} {names : Names} {values : List Val} {id : Nat} (h : i.addOptions names values id = .ok i') :
    ∃ vs, normalizeValues names.list.length 0 values = .ok vs ∧
      i' = i.setAll ⟨id, vs, none⟩ (decide (names.list.length > 1)) 0 names.list := by
  unfold Info.addOptions at h
  split at h
  · cases h
  · split at h
    · cases h
    · rename_i vs hvs
      cases h
      exact ⟨vs, hvs, rfl⟩

theorem decorate_spec (ds : List (Names × List Val)) (id : Nat) (i i' : Info) (h : i.Ok) (hd : i.decorate id ds = .ok i') :
    i'.args = i.args ∧ i'.Ok ∧
    (∀ n, (∀ d ∈ ds, n ∉ d.1.list) → i'.par n = i.par n) ∧
    (∀ (k j : Nat) (d : Names × List Val) (n : Str), ds[k]? = some d → d.1.list[j]? = some n → n ∉ d.1.list.drop (j + 1) →
      (∀ d' ∈ ds.drop (k + 1), n ∉ d'.1.list) →
      ∃ vs, normalizeValues d.1.list.length 0 d.2 = .ok vs ∧ i'.par n = some ((⟨id + k, vs, none⟩ : Par).at (decide (d.1.list.length > 1)) j)) := by
  induction ds generalizing id i with
  | nil => cases hd; exact ⟨rfl, h, fun n _ => rfl, fun k j d n hk => by simp at hk⟩
  | cons d ds ih =>
    simp only [Info.decorate] at hd
    cases ha : i.addOptions d.1 d.2 id with
    | error e => rw [ha] at hd; cases hd
    | ok i1 =>
      rw [ha] at hd
      obtain ⟨vs, hvs, rfl⟩ := addOptions_ok ha
      obtain ⟨s1, s2, s3, s4⟩ := setAll_spec ⟨id, vs, none⟩ (decide (d.1.list.length > 1)) d.1.list 0 i h
      obtain ⟨h1, h2, h3, h4⟩ := ih (id + 1) _ s2 hd
      refine ⟨h1.trans s1, h2, fun n hn => ?_, fun k j d' n hk hj hd' hl => ?_⟩
      · exact (h3 n (fun d' hd' => hn d' (List.mem_cons_of_mem _ hd'))).trans (s3 n (hn d List.mem_cons_self))
      · cases k with
        | zero =>
          simp only [List.getElem?_cons_zero, Option.some.injEq] at hk
          subst hk
          refine ⟨vs, hvs, (h3 n (by simpa using hl)).trans ?_⟩
          have := s4 j n hj hd'
          rw [Nat.zero_add] at this
          exact this
        | succ k =>
          have := h4 k j d' n (by simpa using hk) hj hd' (by simpa using hl)
          rw [show id + 1 + k = id + (k + 1) by omega] at this
          exact this

theorem lookup_none_iff {α : Type} (l : List (Str × α)) (n : Str) : l.lookup n = none ↔ n ∉ l.map (·.1) := by
  induction l with
  | nil => simp
  | cons e l ih =>
    obtain ⟨a, b⟩ := e
    rw [List.lookup_cons]
    by_cases h : n = a
    · subst h; simp
    · have : (n == a) = false := by simpa using h
      rw [this]
      simp [ih, h]

theorem lookup_append {α : Type} (l m : List (Str × α)) (n : Str) : (l ++ m).lookup n = (l.lookup n).or (m.lookup n) := by
  induction l with
  | nil => simp
  | cons e l ih =>
    obtain ⟨a, b⟩ := e
    rw [List.cons_append, List.lookup_cons, List.lookup_cons]
    split
    · rfl
    · exact ih

theorem iter_lookup (i : Info) (h : i.Ok) (n : Str) : i.iter.lookup n = i.par n := by
  unfold Info.iter Info.par
  rw [lookup_append]
  have hargs : ∀ l : List Str, (l.filterMap (fun n => (i.params.lookup n).map (fun p => (n, p)))).lookup n = if n ∈ l then i.params.lookup n else none := by
    intro l
    induction l with
    | nil => rfl
    | cons m l ih =>
      rw [List.filterMap_cons]
      cases hm : i.params.lookup m with
      | none =>
        simp only [Option.map_none]
        rw [ih]
        by_cases h1 : n = m
        · subst h1; simp [hm]
        · simp [h1]
      | some p =>
        simp only [Option.map_some]
        rw [List.lookup_cons]
        by_cases h1 : n = m
        · subst h1; simp [hm]
        · have : (n == m) = false := by simpa using h1
          rw [this, ih]
          simp [h1]
  rw [hargs]
  by_cases hn : n ∈ i.args
  · rw [if_pos hn, if_pos hn]
    have : i.extra.lookup n = none := by
      rw [lookup_none_iff]
      intro hm
      obtain ⟨e, he, rfl⟩ := List.mem_map.1 hm
      exact h.disjoint e he hn
    rw [this]; cases i.params.lookup n <;> rfl
  · rw [if_neg hn, if_neg hn]; rfl

theorem fill_lookup (indices : Nat → Option Nat) (ps : List (Str × Par)) (kw kw' : List (Str × Val)) (h : fill indices ps kw = some kw') (n : Str) :
    kw'.lookup n = (kw.lookup n).or ((ps.lookup n).bind (fun p => (indices p.id).bind p.value)) := by
  induction ps generalizing kw with
  | nil => cases h; simp
  | cons e ps ih =>
    obtain ⟨m, p⟩ := e
    simp only [fill] at h
    cases hv : (indices p.id).bind p.value with
    | none => rw [hv] at h; cases h
    | some v =>
      rw [hv] at h
      rw [ih _ h, List.lookup_cons]
      by_cases hn : n = m
      · subst hn
        simp only [beq_self_eq_true, Option.bind_some, hv]
        cases hk : kw.lookup n with
        | some x => simp [hk]
        | none => simp [lookup_append, hk]
      · have hb : (n == m) = false := by simpa using hn
        rw [hb]
        simp only
        split
        · rfl
        · rw [lookup_append]
          have : List.lookup n [(m, v)] = none := by simp [List.lookup_cons, hb]
          rw [this]
          cases kw.lookup n <;> rfl

theorem fill_some (indices : Nat → Option Nat) (ps : List (Str × Par)) (kw : List (Str × Val))
    (h : ∀ e ∈ ps, ((indices e.2.id).bind e.2.value).isSome = true) : ∃ kw', fill indices ps kw = some kw' := by
  induction ps generalizing kw with
  | nil => exact ⟨kw, rfl⟩
  | cons e ps ih =>
    obtain ⟨m, p⟩ := e
    obtain ⟨v, hv⟩ := Option.isSome_iff_exists.1 (h _ List.mem_cons_self)
    simp only [fill]
    simp only at hv
    rw [hv]
    exact ih _ (fun e he => h e (List.mem_cons_of_mem _ he))

/-! ## Specification -/

/-- The value without the label and tags that were put on it. -/
def plain : Val → Val
  | .pv _ v _ => v
  | v => v

/-- The tags that were put on a value. -/
def tagsOf : Val → List (Nat × Nat)
  | .pv _ _ t => t
  | _ => []

/-- The label that was put on a value, its index if none was. -/
def labelOf (index : Nat) : Val → Label
  | .pv l _ _ => l
  | _ => .index index

/-- A value fits the names. -/
def Fits (num : Nat) (v : Val) : Prop := plain v ≠ .nothing ∧ (num > 1 → ∃ l, plain v = .seq l ∧ l.length = num)

theorem normalizeSingle_spec (index : Nat) (v : Val) :
    normalizeSingle index v = if plain v = .nothing then .error .noValue else .ok ⟨labelOf index v, plain v, tagsOf v⟩ := by
  cases v <;> rfl

theorem checkLength_spec (num : Nat) (n : NVal) : (∃ m, checkLength num n = .ok m) ↔ (num > 1 → ∃ l, n.value = .seq l ∧ l.length = num) := by
  unfold checkLength
  by_cases h : num > 1
  · rw [if_pos h]
    cases hv : n.value with
    | seq l =>
      simp only
      by_cases hl : l.length = num
      · simp [hl]
      · simp [hl, h]
    | _ => simp [h]
  · simp [h]

theorem checkLength_same (num : Nat) (n m : NVal) (h : checkLength num n = .ok m) : m = n := by
  unfold checkLength at h
  split at h
  · split at h
    · split at h <;> cases h; rfl
    · cases h
  · cases h; rfl

theorem normalizeValues_ok (num : Nat) (values : List Val) (index : Nat) (ns : List NVal) :
    normalizeValues num index values = .ok ns → (∀ v ∈ values, Fits num v) ∧ ns.length = values.length ∧
      ∀ (i : Nat) (v : Val), values[i]? = some v → ns[i]? = some ⟨labelOf (index + i) v, plain v, tagsOf v⟩ := by
  induction values generalizing index ns with
  | nil => intro h; cases h; simp
  | cons v vs ih =>
    intro h
    simp only [normalizeValues, normalizeSingle_spec] at h
    by_cases hp : plain v = .nothing
    · rw [if_pos hp] at h; cases h
    · rw [if_neg hp] at h
      simp only at h
      cases hc : checkLength num ⟨labelOf index v, plain v, tagsOf v⟩ with
      | error e => rw [hc] at h; cases h
      | ok m =>
        rw [hc] at h
        have hm := checkLength_same _ _ _ hc
        cases hr : normalizeValues num (index + 1) vs with
        | error e => simp only [hr] at h; cases h
        | ok ms =>
          simp only [hr] at h
          cases h
          obtain ⟨h1, h2, h3⟩ := ih _ _ hr
          have hf := (checkLength_spec num _).1 ⟨m, hc⟩
          refine ⟨?_, by simp [h2], ?_⟩
          · intro x hx
            rcases List.mem_cons.1 hx with rfl | hx
            · exact ⟨hp, hf⟩
            · exact h1 x hx
          · intro i x hx
            cases i with
            | zero => simp at hx; subst hx; simp [hm]
            | succ i =>
              have := h3 i x (by simpa using hx)
              rw [show index + 1 + i = index + (i + 1) by omega] at this
              simpa using this

theorem normalizeValues_fits (num : Nat) (values : List Val) (index : Nat) (h : ∀ v ∈ values, Fits num v) : ∃ ns, normalizeValues num index values = .ok ns := by
  induction values generalizing index with
  | nil => exact ⟨[], rfl⟩
  | cons v vs ih =>
    obtain ⟨h1, h2⟩ := h v List.mem_cons_self
    obtain ⟨ns, hns⟩ := ih (index + 1) (fun x hx => h x (List.mem_cons_of_mem _ hx))
    obtain ⟨m, hm⟩ := (checkLength_spec num ⟨labelOf index v, plain v, tagsOf v⟩).2 h2
    exact ⟨m :: ns, by simp only [normalizeValues, normalizeSingle_spec, if_neg h1, hm, hns]; rfl⟩

/-! ## C145 -/

/-- C145: a decorator is accepted exactly if its name is not the name of an argument that is parametrized already, each value is a value, and for
several names each value is a sequence with one element for each name. -/
theorem C145_accepted_iff (i : Info) (names : Names) (values : List Val) (id : Nat) :
    (∃ i', i.addOptions names values id = .ok i') ↔
      (∀ n, names = .one n → ∀ e ∈ i.params, e.1 ≠ n) ∧ ∀ v ∈ values, Fits names.list.length v := by
  constructor
  · rintro ⟨i', h⟩
    obtain ⟨vs, hvs, -⟩ := addOptions_ok h
    refine ⟨?_, (normalizeValues_ok _ _ _ _ hvs).1⟩
    rintro n rfl e he hen
    unfold Info.addOptions Info.known at h
    rw [if_pos (List.any_eq_true.2 ⟨e, he, by simpa using hen⟩)] at h
    cases h
  · rintro ⟨h1, h2⟩
    obtain ⟨vs, hvs⟩ := normalizeValues_fits names.list.length values 0 h2
    unfold Info.addOptions Info.known
    simp only [hvs]
    cases names with
    | tuple ns => exact ⟨_, rfl⟩
    | one n =>
      have : i.params.any (·.1 == n) = false := by
        rw [List.any_eq_false]
        intro e he
        simpa using h1 n rfl e he
      simp only [this]
      exact ⟨_, rfl⟩

/-- C145: the value an argument gets. The function with arguments `args` is decorated by `ds`; `n` is the `j`-th name of the `k`-th
decorator (and does not occur later). If the caller does not give a value for `n`, it is the value the current variation selects for that decorator:
the value itself for one name, its `j`-th element for several. Its tags are those put on it. -/
theorem C145_argument (args : List Str) (hargs : args.Nodup) (ds : List (Names × List Val)) (id : Nat) (i : Info)
    (hi : Info.decorate id ds { args := args } = .ok i) (k j : Nat) (d : Names × List Val) (n : Str) (hk : ds[k]? = some d)
    (hj : d.1.list[j]? = some n) (hlast : n ∉ d.1.list.drop (j + 1)) (hlater : ∀ d' ∈ ds.drop (k + 1), n ∉ d'.1.list)
    (indices : Nat → Option Nat) (index : Nat) (hx : indices (id + k) = some index) (v : Val) (hv : d.2[index]? = some v)
    (kw kw' : List (Str × Val)) (hcall : i.call indices kw = some kw') (hkw : kw.lookup n = none) :
    (d.1.list.length ≤ 1 → kw'.lookup n = some (plain v)) ∧
    (d.1.list.length > 1 → ∃ l, plain v = .seq l ∧ l.length = d.1.list.length ∧ ∃ x, l[j]? = some x ∧ kw'.lookup n = some (.atom x)) ∧
    ∃ p, i.par n = some p ∧ p.tags index = some (tagsOf v) := by
  have hok : Info.Ok { args := args } := ⟨hargs, by simp, by simp⟩
  obtain ⟨-, h2, -, h4⟩ := decorate_spec ds id _ i hok hi
  obtain ⟨vs, hvs, hp⟩ := h4 k j d n hk hj hlast hlater
  obtain ⟨f1, f2, f3⟩ := normalizeValues_ok _ _ _ _ hvs
  have hnv := f3 index v hv
  have hres := fill_lookup indices i.iter kw kw' hcall n
  rw [hkw, iter_lookup i h2, hp] at hres
  refine ⟨fun hl => ?_, fun hl => ?_, ⟨_, hp, ?_⟩⟩
  · have : decide (d.1.list.length > 1) = false := by simpa using hl
    rw [this] at hres
    simpa [Par.at, hx, Par.value, hnv, transform] using hres
  · have : decide (d.1.list.length > 1) = true := by simpa using hl
    rw [this] at hres
    obtain ⟨l, hl1, hl2⟩ := (f1 v (List.mem_of_getElem? hv)).2 hl
    have hjlt : j < l.length := by
      have := (List.getElem?_eq_some_iff.1 hj).1
      omega
    refine ⟨l, hl1, hl2, l[j], by simp [hjlt], ?_⟩
    simpa [Par.at, hx, Par.value, hnv, transform, hl1, hjlt] using hres
  · unfold Par.at
    split <;> simp [Par.tags, hnv]

/-- C145: what the caller gives is not changed, and nothing is given for names that are not parametrized. -/
theorem C145_others (args : List Str) (hargs : args.Nodup) (ds : List (Names × List Val)) (id : Nat) (i : Info)
    (hi : Info.decorate id ds { args := args } = .ok i) (indices : Nat → Option Nat) (kw kw' : List (Str × Val))
    (hcall : i.call indices kw = some kw') (n : Str) :
    (∀ v, kw.lookup n = some v → kw'.lookup n = some v) ∧ ((∀ d ∈ ds, n ∉ d.1.list) → kw'.lookup n = kw.lookup n) := by
  have hok : Info.Ok { args := args } := ⟨hargs, by simp, by simp⟩
  obtain ⟨-, h2, h3, -⟩ := decorate_spec ds id _ i hok hi
  have hres := fill_lookup indices i.iter kw kw' hcall n
  refine ⟨fun v hv => by rw [hres, hv]; rfl, fun hn => ?_⟩
  rw [hres, iter_lookup i h2, h3 n hn]
  have : ({ args := args } : Info).par n = none := by unfold Info.par; split <;> rfl
  rw [this]
  cases kw.lookup n <;> rfl

theorem par_declared (ds : List (Names × List Val)) (id : Nat) (i i' : Info) (h : i.Ok) (hd : i.decorate id ds = .ok i') (n : Str) (p : Par)
    (hp : i'.par n = some p) : i.par n = some p ∨ ∃ (k : Nat) (d : Names × List Val) (j : Nat) (vs : List NVal), ds[k]? = some d ∧
      d.1.list[j]? = some n ∧ normalizeValues d.1.list.length 0 d.2 = .ok vs ∧ p = (⟨id + k, vs, none⟩ : Par).at (decide (d.1.list.length > 1)) j := by
  have exists_last : ∀ (l : List Str), n ∈ l → ∃ j : Nat, l[j]? = some n ∧ n ∉ l.drop (j + 1) := by
    intro l
    induction l with
    | nil => intro h; cases h
    | cons m l ih =>
      intro h
      by_cases hl : n ∈ l
      · obtain ⟨j, h1, h2⟩ := ih hl
        exact ⟨j + 1, by simpa using h1, by simpa using h2⟩
      · rcases List.mem_cons.1 h with rfl | h
        · exact ⟨0, rfl, by simpa using hl⟩
        · exact absurd h hl
  have exists_decl : ∀ (l : List (Names × List Val)), (∃ d ∈ l, n ∈ d.1.list) →
      ∃ (k : Nat) (d : Names × List Val), l[k]? = some d ∧ n ∈ d.1.list ∧ ∀ d' ∈ l.drop (k + 1), n ∉ d'.1.list := by
    intro l
    induction l with
    | nil => rintro ⟨d, hd, -⟩; cases hd
    | cons m l ih =>
      rintro ⟨d, hd, hn⟩
      by_cases hl : ∃ d ∈ l, n ∈ d.1.list
      · obtain ⟨k, d', h1, h2⟩ := ih hl
        exact ⟨k + 1, d', by simpa using h1, by simpa using h2⟩
      · rcases List.mem_cons.1 hd with rfl | hd
        · exact ⟨0, d, rfl, hn, fun d' hd' hn' => hl ⟨d', by simpa using hd', hn'⟩⟩
        · exact absurd ⟨d, hd, hn⟩ hl
  obtain ⟨-, -, h3, h4⟩ := decorate_spec ds id i i' h hd
  by_cases hdecl : ∃ d ∈ ds, n ∈ d.1.list
  · obtain ⟨k, d, hk, hn, hl⟩ := exists_decl ds hdecl
    obtain ⟨j, hj, hjl⟩ := exists_last _ hn
    obtain ⟨vs, hvs, hp'⟩ := h4 k j d n hk hj hjl hl
    rw [hp] at hp'
    cases hp'
    exact .inr ⟨k, d, j, vs, hk, hj, hvs, rfl⟩
  · refine .inl ?_
    rw [← h3 n (fun d hd hn => hdecl ⟨d, hd, hn⟩)]
    exact hp

/-- C145: calling a decorated function does not fail for want of a value, in a variation that has an index for each of its parameters. -/
theorem C145_call_succeeds (args : List Str) (hargs : args.Nodup) (ds : List (Names × List Val)) (id : Nat) (i : Info)
    (hi : Info.decorate id ds { args := args } = .ok i) (indices : Nat → Option Nat)
    (hx : ∀ (k : Nat) (d : Names × List Val), ds[k]? = some d → ∃ index, indices (id + k) = some index ∧ index < d.2.length)
    (kw : List (Str × Val)) : ∃ kw', i.call indices kw = some kw' := by
  have hok : Info.Ok { args := args } := ⟨hargs, by simp, by simp⟩
  obtain ⟨-, h2, -, -⟩ := decorate_spec ds id _ i hok hi
  refine fill_some indices i.iter kw (fun e he => ?_)
  have hkeys : (i.iter.map (·.1)).Nodup := by
    unfold Info.iter
    rw [List.map_append, List.nodup_append]
    refine ⟨?_, h2.extra, ?_⟩
    · have : ∀ l : List Str, l.Nodup → (((l.filterMap (fun n => (i.params.lookup n).map (fun p => (n, p)))).map (·.1)).Nodup ∧
          ∀ m ∈ (l.filterMap (fun n => (i.params.lookup n).map (fun p => (n, p)))).map (·.1), m ∈ l) := by
        intro l
        induction l with
        | nil => simp
        | cons m l ih =>
          intro hl
          rw [List.nodup_cons] at hl
          obtain ⟨k1, k2⟩ := ih hl.2
          rw [List.filterMap_cons]
          cases i.params.lookup m with
          | none => exact ⟨k1, fun x hx => List.mem_cons_of_mem _ (k2 x hx)⟩
          | some p =>
            simp only [Option.map_some, List.map_cons, List.nodup_cons]
            refine ⟨⟨fun hm => hl.1 (k2 m hm), k1⟩, fun x hx => ?_⟩
            rcases List.mem_cons.1 hx with rfl | hx
            · exact List.mem_cons_self
            · exact List.mem_cons_of_mem _ (k2 x hx)
      exact (this i.args h2.args).1
    · intro a ha b hb e'
      subst e'
      obtain ⟨x, hx', rfl⟩ := List.mem_map.1 ha
      obtain ⟨m, hm, hmx⟩ := List.mem_filterMap.1 hx'
      obtain ⟨y, hy, hyx⟩ := List.mem_map.1 hb
      cases hl : i.params.lookup m with
      | none => rw [hl] at hmx; cases hmx
      | some p =>
        rw [hl] at hmx
        cases hmx
        exact h2.disjoint y hy (by rw [hyx]; exact hm)
  have hl : i.iter.lookup e.1 = some e.2 := by
    generalize i.iter = l at he hkeys
    induction l with
    | nil => cases he
    | cons y l ih =>
      rw [List.map_cons, List.nodup_cons] at hkeys
      rcases List.mem_cons.1 he with rfl | he
      · obtain ⟨a, b⟩ := e; simp
      · have hne : (e.1 == y.1) = false := by
          rw [beq_eq_false_iff_ne]
          intro h
          exact hkeys.1 (h ▸ List.mem_map_of_mem he)
        have := ih he hkeys.2
        obtain ⟨a, b⟩ := y
        simp only at hne
        rw [List.lookup_cons, hne]
        exact this
  rw [iter_lookup i h2] at hl
  rcases par_declared ds id _ i hok hi e.1 e.2 hl with h | ⟨k, d, j, vs, hk, hj, hvs, hp⟩
  · have : ({ args := args } : Info).par e.1 = none := by unfold Info.par; split <;> rfl
    rw [this] at h; cases h
  · obtain ⟨index, hindex, hlt⟩ := hx k d hk
    obtain ⟨f1, f2, f3⟩ := normalizeValues_ok _ _ _ _ hvs
    have hv : d.2[index]? = some d.2[index] := by simp [hlt]
    have hnv := f3 index _ hv
    rw [hp]
    by_cases hm : d.1.list.length > 1
    · obtain ⟨l, hl1, hl2⟩ := (f1 _ (List.mem_of_getElem? hv)).2 hm
      have hjlt : j < l.length := by
        have := (List.getElem?_eq_some_iff.1 hj).1
        omega
      simp [Par.at, hm, hindex, Par.value, hnv, transform, hl1, hjlt]
    · simp [Par.at, hm, hindex, Par.value, hnv, transform]

/-- C145: `iterate` is `parametrize` for each of its names, `toggle` is `parametrize` by `True` and `False`. -/
theorem C145_iterate (kwargs : List (Str × List Val)) (n : Str) (id : Nat) (i : Info) :
    Info.decorate id (iterate kwargs) i = (kwargs.zipIdx id).foldlM (fun i k => i.addOptions (.one k.1.1) k.1.2 k.2) i ∧
    Info.decorate id [toggle n] i = i.addOptions (.one n) [.atom 1, .atom 0] id := by
  constructor
  · unfold iterate
    induction kwargs generalizing id i with
    | nil => rfl
    | cons k kwargs ih =>
      simp only [List.map_cons, Info.decorate, List.zipIdx_cons, List.foldlM_cons]
      cases i.addOptions (.one k.1) k.2 id with
      | error e => rfl
      | ok i' => exact ih (id + 1) i'
  · simp only [Info.decorate, toggle, bools]
    cases i.addOptions (.one n) [.atom 1, .atom 0] id <;> rfl

/-- C145: a fixture made of a generator has the values the generator yields, in order. -/
theorem C145_generator_fixture (yielded : List Val) (id : Nat) (i : Info) (h : generatorFixture yielded id = .ok i) (index : Nat) (v : Val)
    (hv : yielded[index]? = some v) (indices : Nat → Option Nat) (hx : indices id = some index) (kw' : List (Str × Val))
    (hc : i.call indices [] = some kw') : kw'.lookup paramName = some (plain v) :=
  (C145_argument [paramName] (by simp) [(.one paramName, yielded)] id i h 0 0 (.one paramName, yielded) paramName rfl rfl (by simp [Names.list])
    (by simp) indices index hx v hv [] kw' hc rfl).1 (by simp [Names.list])

/-- C145: a value put over `slash.param(...)` or `slash.tag(...)` is that value, with the label and tags of the latter. -/
theorem C145_over_partial (v : Val) (hv : ∀ l x t, v ≠ .pv l x t) (l : Label) (tags : List (Nat × Nat)) (tag : Nat × Nat) :
    (∃ p, overParam v (.pv l .nothing tags) = some p ∧ plain p = plain v ∧ tagsOf p = tags ∧ ∀ i, labelOf i p = l) ∧
    plain (overTag v tag) = plain v ∧ tagsOf (overTag v tag) = [tag] := by
  have : plain v = v := by
    cases v with
    | pv l x t => exact absurd rfl (hv l x t)
    | _ => rfl
  exact ⟨⟨_, rfl, this.symm, rfl, fun _ => rfl⟩, this.symm, rfl⟩

/-- C145: a value cannot be put over one that has a value. -/
theorem C145_over_once (v w : Val) (l : Label) (tags : List (Nat × Nat)) (hv : v ≠ .nothing) : overParam w (.pv l v tags) = none := by
  cases v with
  | nothing => exact absurd rfl hv
  | _ => rfl

example : overParam (.atom 1) (.pv (.named ['x']) (.atom 2) []) = none := C145_over_once _ _ _ _ (by simp)

/-- C145: a label without a newline is accepted exactly if it has 1 to 30 characters, all of them letters of the English alphabet, digits
or underscores, and does not begin with a digit. -/
theorem C145_label_partial (s : Str) (hn : '\n' ∉ s) (value : Val) (tags : List (Nat × Nat)) :
    param (.named s) value tags =
      if 1 ≤ s.length ∧ s.length ≤ 30 ∧
        (∀ c ∈ s, ('a' ≤ c ∧ c ≤ 'z') ∨ ('A' ≤ c ∧ c ≤ 'Z') ∨ ('0' ≤ c ∧ c ≤ '9') ∨ c = '_') ∧
        (∀ c, s.head? = some c → ¬ ('0' ≤ c ∧ c ≤ '9'))
      then some (.pv (.named s) value tags) else none := by
  have hm : matchesLabel s = isLabel s := by
    unfold matchesLabel
    have : (s.getLast? == some '\n') = false := by
      cases hl : s.getLast? with
      | none => rfl
      | some c =>
        have hc : c ≠ '\n' := fun h => hn (h ▸ List.mem_of_getLast? hl)
        simpa using hc
    rw [this]
    simp
  show (if _ then _ else _) = _
  rw [hm]
  have hiff : isLabel s = true ↔ (1 ≤ s.length ∧ s.length ≤ 30 ∧
        (∀ c ∈ s, ('a' ≤ c ∧ c ≤ 'z') ∨ ('A' ≤ c ∧ c ≤ 'Z') ∨ ('0' ≤ c ∧ c ≤ '9') ∨ c = '_') ∧
        (∀ c, s.head? = some c → ¬ ('0' ≤ c ∧ c ≤ '9'))) := by
    cases s with
    | nil => simp [isLabel]
    | cons c t =>
      have hdig : ∀ c : Char, isLabelStart c = true → ¬ ('0' ≤ c ∧ c ≤ '9') := by
        intro c h
        simp only [isLabelStart, Bool.or_eq_true, Bool.and_eq_true, decide_eq_true_eq, beq_iff_eq] at h
        rintro ⟨_, h9⟩
        rcases h with (⟨h, _⟩ | ⟨h, _⟩) | h
        · exact absurd (Char.le_trans h h9) (by decide)
        · exact absurd (Char.le_trans h h9) (by decide)
        · rw [h] at h9
          exact absurd h9 (by decide)
      have hstart : ∀ c : Char, isLabelStart c = true ↔ ('a' ≤ c ∧ c ≤ 'z') ∨ ('A' ≤ c ∧ c ≤ 'Z') ∨ c = '_' := by
        intro c
        simp only [isLabelStart, Bool.or_eq_true, Bool.and_eq_true, decide_eq_true_eq, beq_iff_eq, or_assoc]
      have hchar : ∀ c : Char, isLabelChar c = true ↔ ('a' ≤ c ∧ c ≤ 'z') ∨ ('A' ≤ c ∧ c ≤ 'Z') ∨ ('0' ≤ c ∧ c ≤ '9') ∨ c = '_' := by
        intro c
        simp only [isLabelChar, Bool.or_eq_true, Bool.and_eq_true, decide_eq_true_eq, hstart]
        constructor
        · rintro (h | h | h | h)
          · exact Or.inr (Or.inr (Or.inl h))
          · exact Or.inl h
          · exact Or.inr (Or.inl h)
          · exact Or.inr (Or.inr (Or.inr h))
        · rintro (h | h | h | h)
          · exact Or.inr (Or.inl h)
          · exact Or.inr (Or.inr (Or.inl h))
          · exact Or.inl h
          · exact Or.inr (Or.inr (Or.inr h))
      simp only [isLabel, Bool.and_eq_true, List.all_eq_true, decide_eq_true_eq, List.length_cons, List.mem_cons, List.head?_cons]
      constructor
      · rintro ⟨⟨h1, h2⟩, h3⟩
        refine ⟨by omega, by omega, ?_, ?_⟩
        · rintro d (rfl | hd)
          · rcases (hstart d).1 h1 with h | h | h
            · exact Or.inl h
            · exact Or.inr (Or.inl h)
            · exact Or.inr (Or.inr (Or.inr h))
          · exact (hchar d).1 (h2 d hd)
        · intro d hd
          injection hd with hd
          exact hd ▸ hdig c h1
      · rintro ⟨_, h2, h3, h4⟩
        refine ⟨⟨?_, fun d hd => (hchar d).2 (h3 d (Or.inr hd))⟩, by omega⟩
        rcases h3 c (Or.inl rfl) with h | h | h | h
        · exact (hstart c).2 (Or.inl h)
        · exact (hstart c).2 (Or.inr (Or.inl h))
        · exact absurd h (h4 c rfl)
        · exact (hstart c).2 (Or.inr (Or.inr h))
  by_cases h : isLabel s = true
  · rw [if_pos h, if_pos (hiff.1 h)]
  · rw [if_neg h, if_neg (fun h' => h (hiff.2 h'))]

example : param (.named "a_1".toList) .nothing [] = some (.pv (.named "a_1".toList) .nothing []) ∧ param (.named "1a".toList) .nothing [] = none ∧
    param (.named (List.replicate 31 'x')) .nothing [] = none ∧ param (.named []) .nothing [] = none ∧
    param (.named "a-b".toList) .nothing [] = none := by decide +kernel

/-- C145 fails for labels that end with a newline: one is accepted. -/
theorem C145_label_newline_violated : param (.named "a\n".toList) .nothing [] = some (.pv (.named "a\n".toList) .nothing []) := by decide +kernel

/-! ## Examples -/

/-- `@parametrize(('b', 'c'), [(1, 2), (3, 4) // slash.tag('t')]) @toggle('a') def test(a, b, c, f)`, called with a value for `f`: the second value of
`(b, c)` and `False` -/
example :
    let ds : List (Names × List Val) := [toggle "a".toList, (.tuple ["b".toList, "c".toList], [.seq [1, 2], overTag (.seq [3, 4]) (7, 0)])]
    ∃ i, Info.decorate 5 ds { args := ["a".toList, "b".toList, "c".toList, "f".toList] } = .ok i ∧
      i.call (fun p => if p = 5 then some 1 else if p = 6 then some 1 else none) [("f".toList, .atom 9)] =
        some [("f".toList, .atom 9), ("a".toList, .atom 0), ("b".toList, .atom 3), ("c".toList, .atom 4)] ∧
      (i.par "c".toList).bind (Par.tags · 1) = some [(7, 0)] := by
  refine ⟨_, rfl, ?_, ?_⟩ <;> decide +kernel

/-- errors -/
example : ({ args := ["a".toList] } : Info).addOptions (.one "a".toList) [.nothing] 1 = .error .noValue ∧
    ({ args := ["a".toList] } : Info).addOptions (.one "a".toList) [.pv (.named ['x']) .nothing []] 1 = .error .noValue ∧
    ({ args := ["a".toList] } : Info).addOptions (.tuple ["a".toList, "b".toList]) [.seq [1, 2], .seq [1]] 1 = .error .length ∧
    ({ args := ["a".toList] } : Info).addOptions (.tuple ["a".toList, "b".toList]) [.atom 1] 1 = .error .notSequence ∧
    Info.decorate 1 [toggle "a".toList, toggle "a".toList] { args := ["a".toList] } = .error .already := ⟨rfl, rfl, rfl, rfl, rfl⟩

/-- a generator fixture -/
example : ∃ i, generatorFixture [.atom 4, .pv (.named ['x']) (.atom 5) []] 3 = .ok i ∧
    i.call (fun _ => some 1) [] = some [(paramName, .atom 5)] := by
  refine ⟨_, rfl, ?_⟩
  decide +kernel

/-- `iterate(a=[1], b=[2, 3])` -/
example : ∃ i, Info.decorate 3 (iterate [("a".toList, [.atom 1]), ("b".toList, [.atom 2, .atom 3])]) { args := ["a".toList, "b".toList] } = .ok i ∧
    i.call (fun p => some (p - 3)) [] = some [("a".toList, .atom 1), ("b".toList, .atom 3)] := by
  refine ⟨_, rfl, ?_⟩
  decide +kernel

/-- C145, full statement (a value with annotations stands for that value): it fails if both `slash.param` and `slash.tag` are put on a value, as in
`1 // slash.param('x') // slash.tag('t')`: the argument gets the object that `//` made, and the label is lost. -/
theorem C145_two_annotations_violated :
    ∃ p, overParam (.atom 1) (.pv (.named ['x']) .nothing []) = some p ∧ plain (overTag p (7, 0)) = .pv (.named ['x']) (.atom 1) [] ∧
      labelOf 0 (overTag p (7, 0)) = .nothing := ⟨_, rfl, rfl, rfl⟩

/-- C145, full statement (names in a tuple get the elements of the values): it fails for a tuple of one name, `parametrize(('a',), [(1,)])`: `a` gets
the tuple, and values that are no tuples are accepted. -/
theorem C145_tuple_of_one_violated :
    (∃ i, Info.decorate 1 [(.tuple ["a".toList], [.seq [1]])] { args := ["a".toList] } = .ok i ∧
      i.call (fun _ => some 0) [] = some [("a".toList, .seq [1])]) ∧
    ∃ i, Info.decorate 1 [(.tuple ["a".toList], [.atom 1])] { args := ["a".toList] } = .ok i := by
  refine ⟨⟨_, rfl, ?_⟩, _, rfl⟩
  decide +kernel

end Slash.PV
