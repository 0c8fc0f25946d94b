import Verif.Lemmas.Flags
import Verif.Props.ConfigOverride
/-!
# C140: options of configuration values on the command line

`run env taken ds xs body cfg`: the parser is configured by the declarations `ds` of the leaves of the configuration, the
command line `xs` is parsed, and a block is run with the configuration it stands for.
-/
namespace Slash.Flags
open Slash.Cfg

/-- the arguments given to an option, in order -/
def valuesOf (f : Str) (xs : List Occ) : List Str := (xs.filter (fun x => x.flag = f)).filterMap (·.value)

/-- the value `new` is in force at `p`, converted to the type of the configured one if it differs from that -/
def InForce (env : Env Val) (old new : Val) (inside : Config Val) (p : Str) : Prop :=
  (new = old ∧ inside p = some old) ∨ ∃ v, new ≠ old ∧ env.deduce old new = .ok v ∧ inside p = some v

/-- no override for the path is on the command line -/
def NoOverride (p : Str) (xs : List Occ) : Prop := ∀ t, p ++ '=' :: t ∉ valuesOf "-o".toList xs

theorem run_ran {env : Env Val} {taken : List Str} {ds : List Decl} {xs : List Occ} {body : Config Val → Option Err × Config Val}
    {cfg : Config Val} {rest : List Occ} {out : Out Val} (h : run env taken ds xs body cfg = .ran rest out) :
    ∃ os a, configure taken ds = some os ∧ Parser ds os ∧ parse os xs {} = some a ∧ rest = a.rest ∧
      out = context env ((numbered ds).map (cmdOf a)) a.overrides body cfg := by
  unfold run at h
  cases hc : configure taken ds with
  | none => rw [hc] at h; cases h
  | some os =>
    rw [hc] at h
    simp only at h
    cases hp : parse os xs {} with
    | none => rw [hp] at h; cases h
    | some a =>
      rw [hp] at h
      simp only at h
      split at h
      · cases h
      · injection h with h1 h2
        exact ⟨os, a, rfl, ⟨(configure_spec hc).1, (configure_spec hc).2.1⟩, hp, h1.symm, h2.symm⟩

theorem numbered_split {ds : List Decl} {i : Nat} {d : Decl} (hd : ds[i]? = some d) (hn : (ds.map (·.path)).Nodup) :
    ∃ l m, numbered ds = l ++ (i, d) :: m ∧ (∀ p ∈ l, p.2.path ≠ d.path) ∧ ∀ p ∈ m, p.2.path ≠ d.path := by
  obtain ⟨l, m, he⟩ := List.append_of_mem (numbered_mem.2 hd)
  have hs : (numbered ds).map (·.2) = ds := by
    unfold numbered
    rw [List.map_snd_zip]
    simp
  have hn' : ((numbered ds).map (fun p => p.2.path)).Nodup := by
    have : (numbered ds).map (fun p => p.2.path) = ((numbered ds).map (·.2)).map (·.path) := by simp
    rw [this, hs]; exact hn
  rw [he, List.map_append, List.map_cons, List.nodup_append, List.nodup_cons] at hn'
  obtain ⟨-, ⟨h1, -⟩, h2⟩ := hn'
  refine ⟨l, m, he, ?_, ?_⟩
  · intro p hp e
    exact h2 p.2.path (List.mem_map.2 ⟨p, hp, rfl⟩) d.path (by simp) e
  · intro p hp e
    exact h1 (List.mem_map.2 ⟨p, hp, e⟩)

section
variable {env : Env Val} {taken : List Str} {ds : List Decl} {xs : List Occ} {body : Config Val → Option Err × Config Val}
  {cfg inside : Config Val} {rest : List Occ} {out : Out Val}

/-- the value of a leaf in terms of the occurrences of its options -/
theorem in_force (h : run env taken ds xs body cfg = .ran rest out) (he : out.entered = some inside)
    (hn : (ds.map (·.path)).Nodup) {d : Decl} (hd : d ∈ ds) (ho : NoOverride d.path xs) :
    ∃ old start new, cfg d.path = some old ∧
      (xs.foldl (argStep d) none = none → start = old) ∧
      (∀ a, xs.foldl (argStep d) none = some a → d.append = none → start = a) ∧
      (∀ a, xs.foldl (argStep d) none = some a → d.append ≠ none → listPlus old a = some start) ∧
      (xs.filterMap (fun x => cbOf d x.flag)).foldlM (fun v c => Cb.apply c v) start = some new ∧
      InForce env old new inside d.path := by
  obtain ⟨os, a, -, hP, hp, -, rfl⟩ := run_ran h
  obtain ⟨i, hi⟩ := List.mem_iff_getElem?.1 hd
  obtain ⟨h1, h2, h3, -⟩ := parse_spec hP hi xs _ _ hp
  obtain ⟨l, m, hl, hl1, hl2⟩ := numbered_split hi hn
  rw [hl, List.map_append, List.map_cons] at he
  obtain ⟨old, start, new, g1, g2, g3, g4, g5, g6⟩ := C45_option_in_force env (l.map (cmdOf a)) (m.map (cmdOf a)) (cmdOf a (i, d))
    a.overrides (by intro c hc; obtain ⟨p, hp, rfl⟩ := List.mem_map.1 hc; exact hl1 p hp)
    (by intro c hc; obtain ⟨p, hp, rfl⟩ := List.mem_map.1 hc; exact hl2 p hp)
    (by
      intro t o hm hE
      rw [h3, List.nil_append] at hm
      apply ho t
      rw [hE] at hm
      exact hm) body cfg inside he
  simp only [cmdOf] at g1 g2 g3 g4 g5 g6
  rw [h1] at g2 g3 g4
  rw [h2, List.nil_append] at g5
  refine ⟨old, start, new, g1, g2, ?_, ?_, ?_, g6⟩
  · intro v hv ha; exact g3 v hv (by rw [ha]; rfl)
  · intro v hv ha
    obtain ⟨f, hf⟩ := Option.ne_none_iff_exists'.1 ha
    exact g4 v listPlus hv (by rw [hf]; rfl)
  · rw [← g5, List.foldlM_map]

/-! ## Names -/

/-- **C140.** The parser can be made iff the names of all options, including `-o`, are different from each other and from
those taken before: no option belongs to two values. -/
theorem C140_names (env : Env Val) (taken : List Str) (ds : List Decl) (xs : List Occ)
    (body : Config Val → Option Err × Config Val) (cfg : Config Val) :
    run env taken ds xs body cfg ≠ .conflict ↔
      ("-o".toList :: ds.flatMap flagsOf).Nodup ∧ ∀ f ∈ "-o".toList :: ds.flatMap flagsOf, f ∉ taken := by
  have hmap : ((⟨"-o".toList, 0, .override⟩ : Opt) :: (numbered ds).flatMap (fun p => options p.1 p.2)).map (·.flag) =
      "-o".toList :: ds.flatMap flagsOf := by
    have hs : (numbered ds).map (·.2) = ds := by unfold numbered; rw [List.map_snd_zip]; simp
    rw [List.map_cons, List.map_flatMap]
    have : (numbered ds).flatMap (fun p => (options p.1 p.2).map (·.flag)) = ((numbered ds).map (·.2)).flatMap flagsOf := by
      rw [List.flatMap_map]
      exact congrArg (fun f => List.flatMap f (numbered ds)) (funext fun p => options_flags p.1 p.2)
    rw [this, hs]
  have hr : run env taken ds xs body cfg ≠ .conflict ↔ configure taken ds ≠ none := by
    unfold run
    cases hc : configure taken ds with
    | none => simp
    | some os =>
      simp only
      cases parse os xs {} with
      | none => simp
      | some a => simp only; split <;> simp
  rw [hr, ← hmap]
  constructor
  · intro h
    obtain ⟨os, hos⟩ := Option.ne_none_iff_exists'.1 h
    obtain ⟨h1, h2, h3⟩ := configure_spec hos
    rw [← h1]
    refine ⟨h2, ?_⟩
    intro f hf
    obtain ⟨o, ho, rfl⟩ := List.mem_map.1 hf
    exact h3 o ho
  · rintro ⟨h1, h2⟩
    unfold configure
    rw [addOptions_ok taken _ [] (by simpa using h1) (fun o ho => h2 _ (List.mem_map_of_mem ho))]
    simp

/-- Two values with the same flag. -/
example : configure [] [{ path := ['a'], on := some ['-', 'x'] }, { path := ['b'], arg := some ['-', 'x'] }] = none := by
  decide +kernel

theorem C140_find_none {os : List Opt} (hP : Parser ds os) (x : Occ) :
    (os.find? (fun p => p.flag = x.flag)).isNone = true ↔ x.flag ∉ "-o".toList :: ds.flatMap flagsOf := by
  rw [List.mem_cons, not_or, List.mem_flatMap]
  constructor
  · intro hn
    rw [Option.isNone_iff_eq_none] at hn
    constructor
    · intro e; rw [e, hP.override] at hn; cases hn
    · rintro ⟨d, hd, hf⟩
      obtain ⟨i, hi⟩ := List.mem_iff_getElem?.1 hd
      obtain ⟨o, h1, -⟩ := hP.own hi hf
      rw [hn] at h1; cases h1
  · rintro ⟨h1, h2⟩
    cases hf : os.find? (fun p => p.flag = x.flag) with
    | none => rfl
    | some o =>
      obtain ⟨hfl, hc⟩ := hP.found hf
      rcases hc with rfl | ⟨d, hd, hod⟩
      · exact absurd hfl.symm h1
      · refine absurd ⟨d, List.mem_of_getElem? hd, ?_⟩ h2
        rw [← options_flags o.dest d, ← hfl]
        exact List.mem_map_of_mem hod

/-- **C140.** What is not an option is left over as positional arguments, in order. -/
theorem C140_rest (h : run env taken ds xs body cfg = .ran rest out) :
    rest = xs.filter (fun x => x.flag ∉ "-o".toList :: ds.flatMap flagsOf) := by
  obtain ⟨os, a, -, hP, hp, rfl, -⟩ := run_ran h
  have key : ∀ (xs : List Occ) (a b : Args), parse os xs a = some b →
      b.rest = a.rest ++ xs.filter (fun x => (os.find? (fun p => p.flag = x.flag)).isNone) := by
    intro xs
    induction xs with
    | nil => intro a b hp; simp only [parse, Option.some.injEq] at hp; subst hp; simp
    | cons x xs ih =>
      intro a b hp
      unfold parse at hp
      cases ho : os.find? (fun o => o.flag = x.flag) with
      | none =>
        rw [ho] at hp
        simp only at hp
        rw [ih _ _ hp, List.filter_cons_of_pos (by simp [ho])]; simp
      | some o =>
        rw [ho] at hp
        simp only at hp
        cases hac : act o x.value a with
        | none => rw [hac] at hp; cases hp
        | some a1 =>
          rw [hac] at hp
          simp only [Option.bind_some] at hp
          rw [ih _ _ hp, List.filter_cons_of_neg (by simp [ho])]
          congr 1
          unfold act at hac
          split at hac
          · cases hac; rfl
          · split at hac
            · cases hac; rfl
            · cases hac; rfl
            · cases hac
          · cases hac; rfl
          · cases hac; rfl
          · cases hac
  rw [key xs {} a hp]
  simp only [List.nil_append]
  apply List.filter_congr
  intro x _
  rw [Bool.eq_iff_iff, C140_find_none hP]
  simp

/-- an occurrence is used wrongly: an option that takes an argument has none, or a flag has one -/
def Misused (ds : List Decl) (x : Occ) : Prop :=
  (x.value = none ∧ (x.flag = "-o".toList ∨ ∃ d ∈ ds, d.arg = some x.flag ∨ d.append = some x.flag)) ∨
  (x.value ≠ none ∧ ∃ d ∈ ds, d.on = some x.flag ∨ d.off = some x.flag ∨ d.increase = some x.flag ∨ d.decrease = some x.flag)

theorem misused_iff {os : List Opt} (hP : Parser ds os) (x : Occ) : ¬ Proper os x ↔ Misused ds x := by
  have hmem : ∀ d ∈ ds, ∀ ac, (⟨x.flag, (ds.findIdx (· = d)), ac⟩ : Opt) ∈ options (ds.findIdx (· = d)) d →
      os.find? (fun p => p.flag = x.flag) = some ⟨x.flag, (ds.findIdx (· = d)), ac⟩ := by
    intro d hd ac hm
    have hi : ds[ds.findIdx (· = d)]? = some d := by
      have hlt := List.findIdx_lt_length_of_exists (xs := ds) (p := (· = d)) ⟨d, hd, by simp⟩
      rw [List.getElem?_eq_getElem hlt]
      have := List.findIdx_getElem (xs := ds) (p := (· = d)) (w := hlt)
      simpa using this
    exact hP.find hi hm
  constructor
  · intro hp
    unfold Proper at hp
    cases hf : os.find? (fun p => p.flag = x.flag) with
    | none => rw [hf] at hp; simp at hp
    | some o =>
      rw [hf] at hp
      simp only [Option.some.injEq, forall_eq'] at hp
      obtain ⟨hfl, hc⟩ := hP.found hf
      rcases hc with rfl | ⟨d, hd, hod⟩
      · left
        refine ⟨?_, .inl hfl.symm⟩
        cases hv : x.value with
        | none => rfl
        | some v => rw [hv] at hp; simp at hp
      · have hdm := List.mem_of_getElem? hd
        obtain ⟨f, j, ac⟩ := o
        simp only at hfl hd hod
        subst hfl
        cases ac with
        | store =>
          left
          refine ⟨?_, .inr ⟨d, hdm, .inl (options_store.1 hod)⟩⟩
          cases hv : x.value with
          | none => rfl
          | some v => rw [hv] at hp; simp at hp
        | append =>
          left
          refine ⟨?_, .inr ⟨d, hdm, .inr (options_append.1 hod)⟩⟩
          cases hv : x.value with
          | none => rfl
          | some v => rw [hv] at hp; simp at hp
        | const c =>
          right
          refine ⟨?_, d, hdm, ?_⟩
          · intro hv; rw [hv] at hp; simp at hp
          · rcases options_const.1 hod with h | h | h | h
            · exact .inl h.2
            · exact .inr (.inl h.2)
            · exact .inr (.inr (.inl h.2))
            · exact .inr (.inr (.inr h.2))
        | override => exact absurd rfl (options_dest _ _ _ hod).2
  · intro hm hp
    rcases hm with ⟨hv, hx | ⟨d, hd, hx⟩⟩ | ⟨hv, d, hd, hx⟩
    · have := (hp ⟨"-o".toList, 0, .override⟩ (by rw [hx]; exact hP.override)).2 (by simp)
      rw [hv] at this; cases this
    · rcases hx with hx | hx
      · have := (hp _ (hmem d hd .store (options_store.2 hx))).2 (by simp)
        rw [hv] at this; cases this
      · have := (hp _ (hmem d hd .append (options_append.2 hx))).2 (by simp)
        rw [hv] at this; cases this
    · have hs : x.value.isSome = true := by
        cases h : x.value with
        | none => exact absurd h hv
        | some v => rfl
      rcases hx with hx | hx | hx | hx
      · exact (hp _ (hmem d hd (.const .setTrue) (options_const.2 (by simp [hx])))).1 hs .setTrue rfl
      · exact (hp _ (hmem d hd (.const .setFalse) (options_const.2 (by simp [hx])))).1 hs .setFalse rfl
      · exact (hp _ (hmem d hd (.const .increase) (options_const.2 (by simp [hx])))).1 hs .increase rfl
      · exact (hp _ (hmem d hd (.const .decrease) (options_const.2 (by simp [hx])))).1 hs .decrease rfl

/-- **C140.** When the command line is refused (if no value has both an option that replaces it and one that is appended to
it): exactly if some option lacks its argument, some flag has one, or a required option is missing. Options of any number
and in any order are accepted otherwise. -/
theorem C140_refused_partial (env : Env Val) (taken : List Str) (ds : List Decl) (xs : List Occ)
    (body : Config Val → Option Err × Config Val) (cfg : Config Val) (hc : run env taken ds xs body cfg ≠ .conflict)
    (hm : ∀ d ∈ ds, d.arg = none ∨ d.append = none) :
    run env taken ds xs body cfg = .usage ↔
      (∃ x ∈ xs, Misused ds x) ∨ ∃ d ∈ ds, d.required = true ∧ ∃ f, d.arg = some f ∧ ∀ x ∈ xs, x.flag ≠ f := by
  have hmiss : missing ds xs = true ↔ ∃ d ∈ ds, d.required = true ∧ ∃ f, d.arg = some f ∧ ∀ x ∈ xs, x.flag ≠ f := by
    unfold missing
    rw [List.any_eq_true]
    constructor
    · rintro ⟨d, hd, h⟩
      rw [Bool.and_eq_true] at h
      refine ⟨d, hd, h.1, ?_⟩
      cases ha : d.arg with
      | none => rw [ha] at h; simp at h
      | some f => rw [ha] at h; exact ⟨f, rfl, by simpa using h.2⟩
    · rintro ⟨d, hd, h1, f, hf, h2⟩
      refine ⟨d, hd, ?_⟩
      rw [h1, hf]
      simpa using h2
  rw [← hmiss]
  unfold run at hc ⊢
  cases hcf : configure taken ds with
  | none => rw [hcf] at hc; exact absurd rfl hc
  | some os =>
    have hP : Parser ds os := ⟨(configure_spec hcf).1, (configure_spec hcf).2.1⟩
    have ht := parse_total hP hm xs {} (by intro i d _ _ v hv; cases hv)
    simp only
    cases hp : parse os xs {} with
    | none =>
      rw [hp] at ht
      simp only [true_iff]
      left
      apply Classical.byContradiction
      intro hne
      have := ht.2 (by
        intro x hx
        apply Classical.byContradiction
        intro hpr
        exact hne ⟨x, hx, (misused_iff hP x).1 hpr⟩)
      cases this
    | some a =>
      rw [hp] at ht
      have hall := ht.1 rfl
      have hnot : ¬ ∃ x ∈ xs, Misused ds x := by
        rintro ⟨x, hx, hmx⟩
        exact (misused_iff hP x).2 hmx (hall x hx)
      simp only
      cases hms : missing ds xs
      · simp [hnot]
      · simp

/-! ## Values -/

theorem fold_arg {d : Decl} (f : Str) (hf : d.arg = some f) (ha : d.append = none) (xs : List Occ) : ∀ cur,
    xs.foldl (argStep d) cur = ((valuesOf f xs).getLast?.map Val.str).or cur := by
  induction xs with
  | nil => intro cur; rfl
  | cons x xs ih =>
    intro cur
    rw [List.foldl_cons, ih]
    unfold valuesOf argStep
    by_cases hx : x.flag = f
    · rw [List.filter_cons_of_pos (by simpa using hx)]
      cases hv : x.value with
      | none => rw [List.filterMap_cons_none hv]
      | some v =>
        rw [List.filterMap_cons_some hv, hf, hx]
        simp only [if_true]
        rw [List.getLast?_cons]
        cases ((xs.filter (fun x => x.flag = f)).filterMap (·.value)).getLast? <;> rfl
    · rw [List.filter_cons_of_neg (by simpa using hx), hf, ha]
      cases hv : x.value with
      | none => rfl
      | some v => simp [Ne.symm hx]

theorem fold_append {d : Decl} (f : Str) (hf : d.append = some f) (ha : d.arg = none) (xs : List Occ) :
    (∀ l, xs.foldl (argStep d) (some (.list l)) = some (.list (l ++ valuesOf f xs))) ∧
    xs.foldl (argStep d) none = if valuesOf f xs = [] then none else some (.list (valuesOf f xs)) := by
  induction xs with
  | nil => exact ⟨fun l => by simp [valuesOf], by simp [valuesOf]⟩
  | cons x xs ih =>
    by_cases hx : x.flag = f
    · have hv' : valuesOf f (x :: xs) = x.value.toList ++ valuesOf f xs := by
        unfold valuesOf
        rw [List.filter_cons_of_pos (by simpa using hx)]
        cases hv : x.value with
        | none => rw [List.filterMap_cons_none hv]; rfl
        | some v => rw [List.filterMap_cons_some hv]; rfl
      rw [hv']
      cases hv : x.value with
      | none =>
        have hs : ∀ cur, argStep d cur x = cur := by intro cur; simp [argStep, hv]
        exact ⟨fun l => by rw [List.foldl_cons, hs]; exact ih.1 l, by rw [List.foldl_cons, hs]; exact ih.2⟩
      | some v =>
        have h1 : ∀ l, argStep d (some (.list l)) x = some (.list (l ++ [v])) := by intro l; simp [argStep, hv, hf, ha, hx]
        have h2 : argStep d none x = some (.list [v]) := by simp [argStep, hv, hf, ha, hx]
        refine ⟨fun l => ?_, ?_⟩
        · rw [List.foldl_cons, h1, ih.1]; simp
        · rw [List.foldl_cons, h2, ih.1]; simp
    · have hv' : valuesOf f (x :: xs) = valuesOf f xs := by
        unfold valuesOf
        rw [List.filter_cons_of_neg (by simpa using hx)]
      have hs : ∀ cur, argStep d cur x = cur := by
        intro cur
        unfold argStep
        split
        · rfl
        · simp [hf, ha, Ne.symm hx]
      rw [hv']
      exact ⟨fun l => by rw [List.foldl_cons, hs]; exact ih.1 l, by rw [List.foldl_cons, hs]; exact ih.2⟩

theorem fold_neither {d : Decl} (hf : d.append = none) (ha : d.arg = none) (xs : List Occ) (cur : Option Val) :
    xs.foldl (argStep d) cur = cur := by
  induction xs with
  | nil => rfl
  | cons x xs ih =>
    rw [List.foldl_cons]
    have : argStep d cur x = cur := by
      unfold argStep
      split
      · rfl
      · simp [hf, ha]
    rw [this]; exact ih

theorem no_flags {d : Decl} (h1 : d.on = none) (h2 : d.off = none) (h3 : d.increase = none) (h4 : d.decrease = none)
    (xs : List Occ) : xs.filterMap (fun x => cbOf d x.flag) = [] := by
  rw [List.filterMap_eq_nil_iff]
  intro x _
  simp [cbOf, h1, h2, h3, h4]

/-- **C140.** A value with an option that takes an argument: the argument given last is in force; without the option the
value is the configured one. -/
theorem C140_argument_partial (h : run env taken ds xs body cfg = .ran rest out) (he : out.entered = some inside)
    (hn : (ds.map (·.path)).Nodup) {d : Decl} (hd : d ∈ ds) (ho : NoOverride d.path xs) (f : Str)
    (hf : d = { path := d.path, arg := some f, required := d.required }) :
    ∃ old, cfg d.path = some old ∧ (valuesOf f xs = [] → inside d.path = some old) ∧
      ∀ v, (valuesOf f xs).getLast? = some v → InForce env old (.str v) inside d.path := by
  have e1 : d.arg = some f := by rw [hf]
  have e2 : d.append = none := by rw [hf]
  have e3 : xs.filterMap (fun x => cbOf d x.flag) = [] := no_flags (by rw [hf]) (by rw [hf]) (by rw [hf]) (by rw [hf]) xs
  obtain ⟨old, start, new, g1, g2, g3, g4, g5, g6⟩ := in_force h he hn hd ho
  rw [e3] at g5
  cases g5
  rw [fold_arg f e1 e2] at g2 g3
  refine ⟨old, g1, ?_, ?_⟩
  · intro hv
    have hso := g2 (by rw [hv]; rfl)
    rw [hso] at g6
    rcases g6 with g6 | ⟨v, g6, -⟩
    · exact g6.2
    · exact absurd rfl g6
  · intro v hv
    have hso := g3 (.str v) (by rw [hv]; rfl) e2
    rw [hso] at g6
    exact g6

/-- **C140.** A list with an option that is appended to it: the arguments given follow the configured elements, in order. -/
theorem C140_appended_partial (h : run env taken ds xs body cfg = .ran rest out) (he : out.entered = some inside)
    (hn : (ds.map (·.path)).Nodup) {d : Decl} (hd : d ∈ ds) (ho : NoOverride d.path xs) (f : Str)
    (hf : d = { path := d.path, append := some f, required := d.required }) (l : List Str) (hl : cfg d.path = some (.list l)) :
    InForce env (.list l) (.list (l ++ valuesOf f xs)) inside d.path := by
  have e1 : d.append = some f := by rw [hf]
  have e2 : d.arg = none := by rw [hf]
  have e3 : xs.filterMap (fun x => cbOf d x.flag) = [] := no_flags (by rw [hf]) (by rw [hf]) (by rw [hf]) (by rw [hf]) xs
  obtain ⟨old, start, new, g1, g2, g3, g4, g5, g6⟩ := in_force h he hn hd ho
  rw [hl] at g1
  cases g1
  rw [e3] at g5
  cases g5
  rw [(fold_append f e1 e2 xs).2] at g2 g4
  by_cases hv : valuesOf f xs = []
  · have := g2 (by rw [if_pos hv])
    rw [this] at g6
    rw [hv, List.append_nil]
    exact g6
  · have := g4 _ (by rw [if_neg hv]) (by rw [e1]; simp)
    simp only [listPlus, Option.some.injEq] at this
    rw [← this] at g6
    exact g6

/-- the switch a flag stands for -/
def switchOf (d : Decl) (x : Occ) : Option Bool :=
  if d.on = some x.flag then some true else if d.off = some x.flag then some false else none

theorem foldlM_switch (bs : List Bool) : ∀ v : Val,
    (bs.map (fun b => if b then Cb.setTrue else Cb.setFalse)).foldlM (fun v c => Cb.apply c v) v =
      some ((bs.getLast?.map Val.bool).getD v) := by
  induction bs with
  | nil => intro v; rfl
  | cons b bs ih =>
    intro v
    rw [List.map_cons, List.foldlM_cons, List.getLast?_cons]
    cases b
    · refine (ih (.bool false)).trans ?_
      cases bs.getLast? <;> rfl
    · refine (ih (.bool true)).trans ?_
      cases bs.getLast? <;> rfl

/-- **C140.** A value with flags that turn it on and off: the flag given last is in force; without such flags the value is
the configured one. -/
theorem C140_switch_partial (h : run env taken ds xs body cfg = .ran rest out) (he : out.entered = some inside)
    (hn : (ds.map (·.path)).Nodup) {d : Decl} (hd : d ∈ ds) (ho : NoOverride d.path xs)
    (hf : d = { path := d.path, on := d.on, off := d.off, required := d.required }) :
    ∃ old, cfg d.path = some old ∧ (xs.filterMap (switchOf d) = [] → inside d.path = some old) ∧
      ∀ b, (xs.filterMap (switchOf d)).getLast? = some b → InForce env old (.bool b) inside d.path := by
  have e1 : d.append = none := by rw [hf]
  have e2 : d.arg = none := by rw [hf]
  have e4 : d.increase = none := by rw [hf]
  have e5 : d.decrease = none := by rw [hf]
  have e3 : xs.filterMap (fun x => cbOf d x.flag) =
      (xs.filterMap (switchOf d)).map (fun b => if b then Cb.setTrue else Cb.setFalse) := by
    rw [List.map_filterMap]
    congr 1
    funext x
    unfold cbOf switchOf
    rw [e4, e5]
    split
    · rfl
    · split <;> simp
  obtain ⟨old, start, new, g1, g2, g3, g4, g5, g6⟩ := in_force h he hn hd ho
  rw [fold_neither e1 e2] at g2
  rw [g2 rfl, e3, foldlM_switch] at g5
  cases g5
  refine ⟨old, g1, ?_, ?_⟩
  · intro hv
    rw [hv] at g6
    rcases g6 with g6 | ⟨v, g6, -⟩
    · exact g6.2
    · exact absurd rfl g6
  · intro b hb
    rw [hb] at g6
    exact g6

theorem foldlM_level (cs : List Cb) (hc : ∀ c ∈ cs, c = .increase ∨ c = .decrease) : ∀ n : Int,
    cs.foldlM (fun v c => Cb.apply c v) (Val.int n) = some (.int (n + cs.count .increase - cs.count .decrease)) := by
  induction cs with
  | nil => intro n; simp
  | cons c cs ih =>
    intro n
    rw [List.foldlM_cons]
    have ih := ih (fun c hc' => hc c (List.mem_cons_of_mem _ hc'))
    rcases hc c (by simp) with rfl | rfl
    · refine (ih (n + 1)).trans ?_
      rw [List.count_cons_self, List.count_cons_of_ne (by decide)]
      congr 2
      omega
    · refine (ih (n - 1)).trans ?_
      rw [List.count_cons_self, List.count_cons_of_ne (by decide)]
      congr 2
      omega

/-- how often an option is given -/
def times (f : Option Str) (xs : List Occ) : Nat := (xs.filter (fun x => some x.flag = f)).length

theorem count_level {d : Decl} (e4 : d.on = none) (e5 : d.off = none) (hne : ∀ f, d.increase = some f → d.decrease ≠ some f)
    (xs : List Occ) : (xs.filterMap (fun x => cbOf d x.flag)).count .increase = times d.increase xs ∧
      (xs.filterMap (fun x => cbOf d x.flag)).count .decrease = times d.decrease xs := by
  unfold times
  induction xs with
  | nil => exact ⟨rfl, rfl⟩
  | cons x xs ih =>
    by_cases hi : d.increase = some x.flag
    · have hde := hne _ hi
      have hcb : cbOf d x.flag = some .increase := by simp [cbOf, e4, e5, hi]
      rw [List.filterMap_cons_some (f := fun x : Occ => cbOf d x.flag) hcb, List.filter_cons_of_pos (by simp [hi]),
        List.filter_cons_of_neg (by simpa using Ne.symm hde), List.count_cons_self, List.count_cons_of_ne (by decide)]
      simp [ih]
    · by_cases hde : d.decrease = some x.flag
      · have hcb : cbOf d x.flag = some .decrease := by simp [cbOf, e4, e5, hi, hde]
        rw [List.filterMap_cons_some (f := fun x : Occ => cbOf d x.flag) hcb, List.filter_cons_of_neg (by simpa using Ne.symm hi),
          List.filter_cons_of_pos (by simp [hde]), List.count_cons_self, List.count_cons_of_ne (by decide)]
        simp [ih]
      · have hcb : cbOf d x.flag = none := by simp [cbOf, e4, e5, hi, hde]
        rw [List.filterMap_cons_none (f := fun x : Occ => cbOf d x.flag) hcb, List.filter_cons_of_neg (by simpa using Ne.symm hi),
          List.filter_cons_of_neg (by simpa using Ne.symm hde)]
        exact ih

/-- **C140.** A number with flags that increase and decrease it (`-q`, `-v`): it is changed by the number of times they are
given, in whatever order they come. -/
theorem C140_level_partial (h : run env taken ds xs body cfg = .ran rest out) (he : out.entered = some inside)
    (hn : (ds.map (·.path)).Nodup) {d : Decl} (hd : d ∈ ds) (ho : NoOverride d.path xs)
    (hf : d = { path := d.path, increase := d.increase, decrease := d.decrease, required := d.required })
    (n : Int) (hl : cfg d.path = some (.int n)) :
    InForce env (.int n) (.int (n + times d.increase xs - times d.decrease xs)) inside d.path := by
  have e1 : d.append = none := by rw [hf]
  have e2 : d.arg = none := by rw [hf]
  have e4 : d.on = none := by rw [hf]
  have e5 : d.off = none := by rw [hf]
  -- the two names differ
  have hne : ∀ f, d.increase = some f → d.decrease ≠ some f := by
    intro f h1 h2
    obtain ⟨os, a, hc, hP, -⟩ := run_ran h
    obtain ⟨i, hi⟩ := List.mem_iff_getElem?.1 hd
    have := hP.action hi (options_const.2 (.inr (.inr (.inl ⟨rfl, h1⟩)))) (options_const.2 (.inr (.inr (.inr ⟨rfl, h2⟩)))) rfl
    injection this with _ _ h3
    injection h3 with h4
    cases h4
  obtain ⟨old, start, new, g1, g2, g3, g4, g5, g6⟩ := in_force h he hn hd ho
  rw [hl] at g1
  cases g1
  rw [fold_neither e1 e2] at g2
  rw [g2 rfl, foldlM_level _ (by
    intro c hc
    obtain ⟨x, -, hx⟩ := List.mem_filterMap.1 hc
    simp only [cbOf, e4, e5, reduceCtorEq, if_false] at hx
    split at hx
    · cases hx; simp
    · split at hx
      · cases hx; simp
      · cases hx)] at g5
  have c1 := count_level e4 e5 hne xs
  rw [c1.1, c1.2] at g5
  cases g5
  exact g6

theorem foldlM_truth (cs : List Cb) (hc : ∀ c ∈ cs, c = .increase ∨ c = .decrease) (hne : cs ≠ []) (b : Bool) :
    cs.foldlM (fun v c => Cb.apply c v) (Val.bool b) = some (.int (b.toInt + cs.count .increase - cs.count .decrease)) := by
  cases cs with
  | nil => exact absurd rfl hne
  | cons c cs =>
    rw [List.foldlM_cons]
    have ih := foldlM_level cs (fun c hc' => hc c (List.mem_cons_of_mem _ hc'))
    rcases hc c (by simp) with rfl | rfl
    · refine (ih (b.toInt + 1)).trans ?_
      rw [List.count_cons_self, List.count_cons_of_ne (by decide)]
      congr 2
      omega
    · refine (ih (b.toInt - 1)).trans ?_
      rw [List.count_cons_self, List.count_cons_of_ne (by decide)]
      congr 2
      omega

/-- **C140.** The same for a truth value with such flags if one of them is given: it counts as 0 or 1. -/
theorem C140_level_truth_partial (h : run env taken ds xs body cfg = .ran rest out) (he : out.entered = some inside)
    (hn : (ds.map (·.path)).Nodup) {d : Decl} (hd : d ∈ ds) (ho : NoOverride d.path xs)
    (hf : d = { path := d.path, increase := d.increase, decrease := d.decrease, required := d.required })
    (b : Bool) (hl : cfg d.path = some (.bool b)) (hg : 0 < times d.increase xs + times d.decrease xs) :
    InForce env (.bool b) (.int (b.toInt + times d.increase xs - times d.decrease xs)) inside d.path := by
  have e1 : d.append = none := by rw [hf]
  have e2 : d.arg = none := by rw [hf]
  have e4 : d.on = none := by rw [hf]
  have e5 : d.off = none := by rw [hf]
  -- the two names differ
  have hne : ∀ f, d.increase = some f → d.decrease ≠ some f := by
    intro f h1 h2
    obtain ⟨os, a, hc, hP, -⟩ := run_ran h
    obtain ⟨i, hi⟩ := List.mem_iff_getElem?.1 hd
    have := hP.action hi (options_const.2 (.inr (.inr (.inl ⟨rfl, h1⟩)))) (options_const.2 (.inr (.inr (.inr ⟨rfl, h2⟩)))) rfl
    injection this with _ _ h3
    injection h3 with h4
    cases h4
  obtain ⟨old, start, new, g1, g2, g3, g4, g5, g6⟩ := in_force h he hn hd ho
  rw [hl] at g1
  cases g1
  rw [fold_neither e1 e2] at g2
  have c1 := count_level e4 e5 hne xs
  have hcs : xs.filterMap (fun x => cbOf d x.flag) ≠ [] := by
    intro e
    rw [e] at c1
    have h1 : 0 = times d.increase xs := c1.1
    have h2 : 0 = times d.decrease xs := c1.2
    omega
  rw [g2 rfl, foldlM_truth _ (by
    intro c hc
    obtain ⟨x, -, hx⟩ := List.mem_filterMap.1 hc
    simp only [cbOf, e4, e5, reduceCtorEq, if_false] at hx
    split at hx
    · cases hx; simp
    · split at hx
      · cases hx; simp
      · cases hx) hcs] at g5
  rw [c1.1, c1.2] at g5
  cases g5
  exact g6

theorem own_only (d : Decl) (xs : List Occ) : ∀ cur,
    xs.foldl (argStep d) cur = (xs.filter (fun x => x.flag ∈ flagsOf d)).foldl (argStep d) cur ∧
    xs.filterMap (fun x => cbOf d x.flag) = (xs.filter (fun x => x.flag ∈ flagsOf d)).filterMap (fun x => cbOf d x.flag) := by
  induction xs with
  | nil => intro cur; exact ⟨rfl, rfl⟩
  | cons x xs ih =>
    intro cur
    by_cases hx : x.flag ∈ flagsOf d
    · rw [List.filter_cons_of_pos (by simpa using hx)]
      exact ⟨by rw [List.foldl_cons, List.foldl_cons]; exact (ih _).1, by
        rw [List.filterMap_cons, List.filterMap_cons, (ih cur).2]⟩
    · rw [List.filter_cons_of_neg (by simpa using hx), List.foldl_cons, argStep_foreign _ hx]
      refine ⟨(ih cur).1, ?_⟩
      rw [List.filterMap_cons, (foreign hx).1]
      exact (ih cur).2

/-- **C140.** A value depends on the occurrences of its own options only, whatever else is on the command line and wherever:
two command lines with the same ones, in the same order, give the same value. -/
theorem C140_independent {xs ys : List Occ} {rest rest' : List Occ} {out out' : Out Val} {inside inside' : Config Val}
    {body' : Config Val → Option Err × Config Val}
    (h : run env taken ds xs body cfg = .ran rest out) (he : out.entered = some inside)
    (h' : run env taken ds ys body' cfg = .ran rest' out') (he' : out'.entered = some inside')
    (hn : (ds.map (·.path)).Nodup) {d : Decl} (hd : d ∈ ds) (ho : NoOverride d.path xs) (ho' : NoOverride d.path ys)
    (hsame : xs.filter (fun x => x.flag ∈ flagsOf d) = ys.filter (fun x => x.flag ∈ flagsOf d)) :
    inside d.path = inside' d.path := by
  obtain ⟨old, start, new, g1, g2, g3, g4, g5, g6⟩ := in_force h he hn hd ho
  obtain ⟨old', start', new', k1, k2, k3, k4, k5, k6⟩ := in_force h' he' hn hd ho'
  rw [g1] at k1
  cases k1
  rw [(own_only d xs none).1, hsame] at g2 g3 g4
  rw [(own_only d xs none).2, hsame] at g5
  rw [(own_only d ys none).1] at k2 k3 k4
  rw [(own_only d ys none).2] at k5
  have hst : start = start' := by
    cases hx : (ys.filter (fun x => x.flag ∈ flagsOf d)).foldl (argStep d) none with
    | none => rw [g2 hx, k2 hx]
    | some v =>
      by_cases ha : d.append = none
      · rw [g3 v hx ha, k3 v hx ha]
      · have e1 := g4 v hx ha
        have e2 := k4 v hx ha
        rw [e1] at e2; cases e2; rfl
  rw [hst, k5] at g5
  cases g5
  rcases g6 with ⟨a1, a2⟩ | ⟨v, a1, a2, a3⟩ <;> rcases k6 with ⟨b1, b2⟩ | ⟨w, b1, b2, b3⟩
  · rw [a2, b2]
  · exact absurd a1 b1
  · exact absurd b1 a1
  · rw [a2] at b2; cases b2; rw [a3, b3]

/-- **C140.** A value none of whose options is on the command line is the configured one. -/
theorem C140_unmentioned (h : run env taken ds xs body cfg = .ran rest out) (he : out.entered = some inside)
    (hn : (ds.map (·.path)).Nodup) {d : Decl} (hd : d ∈ ds) (ho : NoOverride d.path xs)
    (hx : ∀ x ∈ xs, x.flag ∉ flagsOf d) : inside d.path = cfg d.path := by
  obtain ⟨old, start, new, g1, g2, g3, g4, g5, g6⟩ := in_force h he hn hd ho
  have hnil : xs.filter (fun x => x.flag ∈ flagsOf d) = [] := by
    rw [List.filter_eq_nil_iff]; intro x hxm; simpa using hx x hxm
  rw [(own_only d xs none).2, hnil] at g5
  rw [(own_only d xs none).1, hnil] at g2
  cases g5
  rw [g2 rfl] at g6
  rw [g1]
  rcases g6 with g6 | ⟨v, g6, -⟩
  · exact g6.2
  · exact absurd rfl g6

theorem parse_overrides {os : List Opt} (hP : Parser ds os) (xs : List Occ) : ∀ (a b : Args), parse os xs a = some b →
    b.overrides = a.overrides ++ valuesOf "-o".toList xs := by
  induction xs with
  | nil => intro a b hp; simp only [parse, Option.some.injEq] at hp; subst hp; simp [valuesOf]
  | cons x xs ih =>
    intro a b hp
    unfold parse at hp
    have hcons : valuesOf "-o".toList (x :: xs) = (if x.flag = "-o".toList then x.value.toList else []) ++ valuesOf "-o".toList xs := by
      unfold valuesOf
      by_cases hx : x.flag = "-o".toList
      · rw [List.filter_cons_of_pos (by simpa using hx), if_pos hx]
        cases hv : x.value with
        | none => rw [List.filterMap_cons_none hv]; rfl
        | some v => rw [List.filterMap_cons_some hv]; rfl
      · rw [List.filter_cons_of_neg (by simpa using hx), if_neg hx]; rfl
    cases ho : os.find? (fun o => o.flag = x.flag) with
    | none =>
      rw [ho] at hp
      have hno : x.flag ≠ "-o".toList := by intro e; rw [e, hP.override] at ho; cases ho
      rw [ih _ _ hp, hcons, if_neg hno]; rfl
    | some o =>
      rw [ho] at hp
      simp only at hp
      cases hac : act o x.value a with
      | none => rw [hac] at hp; cases hp
      | some a1 =>
        rw [hac] at hp
        simp only [Option.bind_some] at hp
        rw [ih _ _ hp, hcons, ← List.append_assoc]
        congr 1
        obtain ⟨hfl, hc⟩ := hP.found ho
        rcases hc with rfl | ⟨d, hd, -⟩
        · rw [if_pos hfl.symm]
          cases hv : x.value with
          | none => rw [hv] at hac; cases hac
          | some v => rw [hv] at hac; cases hac; rfl
        · exact (act_spec hP hd ho hac).2.2.1

/-- **C140.** Overrides given with `-o` come after all options: of those for a path the last one is in force, converted to
the type of the value it replaces. -/
theorem C140_override (h : run env taken ds xs body cfg = .ran rest out) (he : out.entered = some inside) (p t : Str)
    (hp : '=' ∉ p) (os1 os2 : List Str) (ho : valuesOf "-o".toList xs = os1 ++ (p ++ '=' :: t) :: os2)
    (hlast : ∀ u, p ++ '=' :: u ∉ os2) : ∃ old v, env.deduceText old t = .ok v ∧ inside p = some v := by
  obtain ⟨os, a, -, hP, hpa, -, rfl⟩ := run_ran h
  have hov := parse_overrides hP xs _ _ hpa
  rw [List.nil_append, ho] at hov
  rw [hov] at he
  refine C45_last_override_in_force env _ os1 os2 p t hp ?_ body cfg inside he
  intro u o hm e
  exact hlast u (e ▸ hm)

end

/-! ## Examples -/

/-- conversion that accepts what it gets -/
def exEnv : Env Val := ⟨fun _ v => .ok v, fun _ t => .ok (.str t)⟩

/-- a level, a list, a switch and a directory -/
def exDecls : List Decl :=
  [{ path := ['l'], increase := some ['-', 'q'], decrease := some ['-', 'v'] }, { path := ['k'], append := some ['-', 'k'] },
   { path := ['x'], on := some ['-', 'x'], off := some ['-', 'X'] }, { path := ['r'], arg := some ['-', 'l'] }]

def exCfg : Config Val := fun p =>
  if p = ['l'] then some (.int 3) else if p = ['k'] then some (.list [['a']]) else if p = ['x'] then some (.bool false)
  else if p = ['r'] then some .none else Option.none

/-- the four values inside of the block -/
def values (o : Outcome) : Option (List (Option Val)) :=
  match o with
  | .ran _ out => out.entered.map (fun c => [c ['l'], c ['k'], c ['x'], c ['r']])
  | _ => Option.none

example : values (run exEnv [] exDecls
    [⟨['-', 'v'], none⟩, ⟨['-', 'k'], some ['b']⟩, ⟨['-', 'x'], none⟩, ⟨['-', 'l'], some ['d']⟩, ⟨['-', 'v'], none⟩, ⟨['f'], none⟩,
     ⟨['-', 'l'], some ['e']⟩, ⟨['-', 'X'], none⟩, ⟨['-', 'x'], none⟩, ⟨['-', 'k'], some ['c']⟩, ⟨['-', 'q'], none⟩]
    (fun c => (none, c)) exCfg) =
    some [some (.int 2), some (.list [['a'], ['b'], ['c']]), some (.bool true), some (.str ['e'])] := by decide +kernel

example : values (run exEnv [] exDecls [] (fun c => (none, c)) exCfg) =
    some [some (.int 3), some (.list [['a']]), some (.bool false), some .none] := by decide +kernel

example : values (run exEnv [] exDecls [⟨['-', 'o'], some "k=u".toList⟩, ⟨['-', 'l'], some ['e']⟩, ⟨['-', 'o'], some "r=x".toList⟩,
    ⟨['-', 'o'], some "r=y".toList⟩, ⟨['-', 'l'], some ['z']⟩] (fun c => (none, c)) exCfg) =
    some [some (.int 3), some (.str ['u']), some (.bool false), some (.str ['y'])] := by decide +kernel

example : values (run exEnv [] exDecls [⟨['-', 'v'], none⟩, ⟨['-', 'q'], none⟩, ⟨['-', 'q'], none⟩] (fun c => (none, c))
    (fun p => if p = ['l'] then some (.bool true) else exCfg p)) =
    some [some (.int 2), some (.list [['a']]), some (.bool false), some .none] := by decide +kernel

example : (exDecls.map (·.path)).Nodup ∧ (exDecls.flatMap flagsOf).Nodup := by decide +kernel

example : parse ((configure [] exDecls).getD []) [⟨['-', 'l'], none⟩] {} = none ∧ Misused exDecls ⟨['-', 'l'], none⟩ := by
  constructor
  · rfl
  · exact .inl ⟨rfl, .inr ⟨_, by unfold exDecls; exact List.mem_cons_of_mem _ (List.mem_cons_of_mem _ (List.mem_cons_of_mem _ (List.mem_cons_self))), .inl rfl⟩⟩

/-- **C140 is violated**: of the options of one value the last one given does not prevail if one of them takes an argument
and another one is a flag: flags are applied after arguments. -/
theorem C140_last_wins_violated :
    ∃ (d : Decl) (xs : List Occ), xs.getLast? = some ⟨['-', 'a'], some ['5']⟩ ∧ d.arg = some ['-', 'a'] ∧
      (match run exEnv [] [d] xs (fun c => (none, c)) exCfg with
        | .ran _ out => out.entered.map (fun c => c d.path)
        | _ => Option.none) = some (some (.bool false)) :=
  ⟨{ path := ['l'], arg := some ['-', 'a'], off := some ['-', 'n'] }, [⟨['-', 'n'], none⟩, ⟨['-', 'a'], some ['5']⟩],
   by decide +kernel, by decide +kernel, by decide +kernel⟩

end Slash.Flags
