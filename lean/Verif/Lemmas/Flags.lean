import Verif.Model.Flags
/-!
# Lemmas: options of configuration values
-/
namespace Slash.Flags
open Slash.Cfg

/-- names of the options of a declaration -/
def flagsOf (d : Decl) : List Str :=
  d.arg.toList ++ d.append.toList ++ d.on.toList ++ d.off.toList ++ d.increase.toList ++ d.decrease.toList

theorem options_flags (i : Nat) (d : Decl) : (options i d).map (·.flag) = flagsOf d := by
  simp [options, flagsOf, Function.comp_def]

theorem options_dest (i : Nat) (d : Decl) (o : Opt) (h : o ∈ options i d) : o.dest = i ∧ o.action ≠ .override := by
  simp only [options, List.mem_append, List.mem_map] at h
  rcases h with ((((h | h) | h) | h) | h) | h <;> obtain ⟨f, -, rfl⟩ := h <;> simp

theorem addOptions_spec (taken : List Str) (new : List Opt) : ∀ (os r : List Opt), addOptions taken new os = some r →
    (os.map (·.flag)).Nodup → (∀ o ∈ os, o.flag ∉ taken) →
    r = os ++ new ∧ (r.map (·.flag)).Nodup ∧ ∀ o ∈ r, o.flag ∉ taken := by
  induction new with
  | nil => intro os r h hn ht; simp only [addOptions, Option.some.injEq] at h; subst h; exact ⟨by simp, hn, ht⟩
  | cons o new ih =>
    intro os r h hn ht
    simp only [addOptions, addOption] at h
    split at h
    · cases h
    · next hne =>
      simp only [not_or] at hne
      obtain ⟨h1, h2, h3⟩ := ih _ _ h (by
        rw [List.map_append, List.nodup_append]
        refine ⟨hn, by simp, ?_⟩
        intro a ha b hb
        simp only [List.map_cons, List.map_nil, List.mem_singleton] at hb
        subst hb
        intro he
        subst he
        exact hne.2 ha) (by
        intro p hp
        simp only [List.mem_append, List.mem_singleton] at hp
        rcases hp with hp | rfl
        · exact ht p hp
        · exact hne.1)
      exact ⟨by simpa using h1, h2, h3⟩

theorem addOptions_ok (taken : List Str) (new : List Opt) : ∀ (os : List Opt),
    ((os ++ new).map (·.flag)).Nodup → (∀ o ∈ new, o.flag ∉ taken) → addOptions taken new os = some (os ++ new) := by
  induction new with
  | nil => intro os _ _; simp [addOptions]
  | cons o new ih =>
    intro os hn ht
    simp only [addOptions, addOption]
    rw [if_neg]
    · simp only [Option.bind_some]
      rw [ih (os ++ [o]) (by simpa using hn) (fun p hp => ht p (by simp [hp]))]
      simp
    · rw [not_or]
      refine ⟨ht o (by simp), ?_⟩
      intro hm
      rw [List.map_append, List.nodup_append] at hn
      exact hn.2.2 _ hm o.flag (by simp) rfl

theorem configure_spec {taken : List Str} {ds : List Decl} {os : List Opt} (h : configure taken ds = some os) :
    os = ⟨"-o".toList, 0, .override⟩ :: (numbered ds).flatMap (fun p => options p.1 p.2) ∧ (os.map (·.flag)).Nodup ∧
    ∀ o ∈ os, o.flag ∉ taken := by
  obtain ⟨h1, h2, h3⟩ := addOptions_spec taken _ [] os h (by simp) (by simp)
  exact ⟨by simpa using h1, h2, h3⟩

theorem find_unique (os : List Opt) (hn : (os.map (·.flag)).Nodup) (o : Opt) (h : o ∈ os) :
    os.find? (fun p => p.flag = o.flag) = some o := by
  induction os with
  | nil => cases h
  | cons p os ih =>
    simp only [List.map_cons, List.nodup_cons] at hn
    rcases List.mem_cons.1 h with rfl | h
    · simp
    · have : p.flag ≠ o.flag := by
        intro he; exact hn.1 (he ▸ List.mem_map_of_mem h)
      rw [List.find?_cons_of_neg (by simpa using this)]
      exact ih hn.2 h

theorem numbered_mem {ds : List Decl} {i : Nat} {d : Decl} : (i, d) ∈ numbered ds ↔ ds[i]? = some d := by
  unfold numbered
  rw [List.mem_iff_getElem?]
  constructor
  · rintro ⟨n, hn⟩
    rw [List.getElem?_zip_eq_some] at hn
    obtain ⟨h1, h2⟩ := hn
    obtain ⟨hlt, he⟩ := List.getElem?_eq_some_iff.1 h1
    simp only [List.getElem_range] at he
    simp only at h2
    rw [← he]; exact h2
  · intro h
    have hlt : i < ds.length := (List.getElem?_eq_some_iff.1 h).1
    exact ⟨i, by rw [List.getElem?_zip_eq_some]; exact ⟨by simp [hlt], h⟩⟩

/-- what is known of a parser whose options do not clash -/
structure Parser (ds : List Decl) (os : List Opt) : Prop where
  eq : os = ⟨"-o".toList, 0, .override⟩ :: (numbered ds).flatMap (fun p => options p.1 p.2)
  nodup : (os.map (·.flag)).Nodup

theorem Parser.find {ds : List Decl} {os : List Opt} (h : Parser ds os) {i : Nat} {d : Decl} (hd : ds[i]? = some d)
    {o : Opt} (ho : o ∈ options i d) : os.find? (fun p => p.flag = o.flag) = some o := by
  refine find_unique os h.nodup o ?_
  rw [h.eq]
  exact List.mem_cons_of_mem _ (List.mem_flatMap.2 ⟨(i, d), numbered_mem.2 hd, ho⟩)

theorem Parser.found {ds : List Decl} {os : List Opt} (h : Parser ds os) {f : Str} {o : Opt}
    (ho : os.find? (fun p => p.flag = f) = some o) :
    o.flag = f ∧ (o = ⟨"-o".toList, 0, .override⟩ ∨ ∃ d, ds[o.dest]? = some d ∧ o ∈ options o.dest d) := by
  refine ⟨by simpa using List.find?_some ho, ?_⟩
  have hm := List.mem_of_find?_eq_some ho
  rw [h.eq] at hm
  rcases List.mem_cons.1 hm with hm | hm
  · exact .inl hm
  · right
    obtain ⟨⟨j, d⟩, hjd, hod⟩ := List.mem_flatMap.1 hm
    have := (options_dest _ _ _ hod).1
    subst this
    exact ⟨d, numbered_mem.1 hjd, hod⟩

theorem Parser.override {ds : List Decl} {os : List Opt} (h : Parser ds os) :
    os.find? (fun p => p.flag = "-o".toList) = some ⟨"-o".toList, 0, .override⟩ := by
  rw [h.eq]; simp

/-- an option that belongs to a declaration is found for this declaration -/
theorem Parser.own {ds : List Decl} {os : List Opt} (h : Parser ds os) {i : Nat} {d : Decl} (hd : ds[i]? = some d)
    {f : Str} (hf : f ∈ flagsOf d) : ∃ o, os.find? (fun p => p.flag = f) = some o ∧ o ∈ options i d ∧ o.flag = f := by
  rw [← options_flags i d] at hf
  obtain ⟨o, ho, rfl⟩ := List.mem_map.1 hf
  exact ⟨o, h.find hd ho, ho, rfl⟩

theorem Parser.notOverride {ds : List Decl} {os : List Opt} (h : Parser ds os) {i : Nat} {d : Decl} (hd : ds[i]? = some d) :
    "-o".toList ∉ flagsOf d := by
  intro hf
  obtain ⟨o, h1, h2, -⟩ := h.own hd hf
  rw [h.override] at h1
  cases h1
  exact (options_dest _ _ _ h2).2 rfl

/-! ## What the parsed arguments are -/

/-- the callback of a flag of a declaration -/
def cbOf (d : Decl) (f : Str) : Option Cb :=
  if d.on = some f then some .setTrue
  else if d.off = some f then some .setFalse
  else if d.increase = some f then some .increase
  else if d.decrease = some f then some .decrease
  else Option.none

/-- the effect of an occurrence on the argument of a declaration -/
def argStep (d : Decl) (cur : Option Val) (x : Occ) : Option Val :=
  match x.value with
  | Option.none => cur
  | some v =>
    if d.arg = some x.flag then some (.str v)
    else if d.append = some x.flag then
      (match cur with
       | some (.list l) => some (.list (l ++ [v]))
       | _ => some (.list [v]))
    else cur

theorem options_store {i : Nat} {d : Decl} {f : Str} : ⟨f, i, .store⟩ ∈ options i d ↔ d.arg = some f := by
  simp [options]

theorem options_append {i : Nat} {d : Decl} {f : Str} : ⟨f, i, .append⟩ ∈ options i d ↔ d.append = some f := by
  simp [options]

theorem options_const {i : Nat} {d : Decl} {f : Str} {c : Cb} : ⟨f, i, .const c⟩ ∈ options i d ↔
    (c = .setTrue ∧ d.on = some f) ∨ (c = .setFalse ∧ d.off = some f) ∨ (c = .increase ∧ d.increase = some f) ∨
    (c = .decrease ∧ d.decrease = some f) := by
  cases c <;> simp [options]

theorem opt_eta (o : Opt) : (⟨o.flag, o.dest, o.action⟩ : Opt) = o := rfl

/-- the action of the option with a given name of a declaration is determined -/
theorem Parser.action {ds : List Decl} {os : List Opt} (h : Parser ds os) {i : Nat} {d : Decl} (hd : ds[i]? = some d)
    {o p : Opt} (ho : o ∈ options i d) (hp : p ∈ options i d) (hf : o.flag = p.flag) : o = p := by
  have h1 := h.find hd ho
  have h2 := h.find hd hp
  rw [hf, h2] at h1
  cases h1
  rfl

theorem cbOf_const {ds : List Decl} {os : List Opt} (h : Parser ds os) {i : Nat} {d : Decl} (hd : ds[i]? = some d)
    {f : Str} {c : Cb} (hm : ⟨f, i, .const c⟩ ∈ options i d) : cbOf d f = some c := by
  have hu : ∀ c', ⟨f, i, .const c'⟩ ∈ options i d → c' = c := by
    intro c' hm'
    have := h.action hd hm' hm rfl
    injection this with _ _ h3
    injection h3
  have key : ∀ c', (⟨f, i, .const c'⟩ : Opt) ∈ options i d → c' = c := hu
  unfold cbOf
  split
  · next e => rw [← key .setTrue (options_const.2 (.inl ⟨rfl, e⟩))]
  · next e1 =>
    split
    · next e => rw [← key .setFalse (options_const.2 (.inr (.inl ⟨rfl, e⟩)))]
    · next e2 =>
      split
      · next e => rw [← key .increase (options_const.2 (.inr (.inr (.inl ⟨rfl, e⟩))))]
      · next e3 =>
        split
        · next e => rw [← key .decrease (options_const.2 (.inr (.inr (.inr ⟨rfl, e⟩))))]
        · next e4 =>
          rcases options_const.1 hm with h | h | h | h
          · exact absurd h.2 e1
          · exact absurd h.2 e2
          · exact absurd h.2 e3
          · exact absurd h.2 e4

/-- a name with a callback is that of an option with this callback -/
theorem cbOf_some {i : Nat} {d : Decl} {f : Str} {c : Cb} (h : cbOf d f = some c) : ⟨f, i, .const c⟩ ∈ options i d := by
  unfold cbOf at h
  rw [options_const]
  split at h
  · cases h; simp_all
  · split at h
    · cases h; simp_all
    · split at h
      · cases h; simp_all
      · split at h
        · cases h; simp_all
        · cases h

theorem cbOf_none_of_store {ds : List Decl} {os : List Opt} (h : Parser ds os) {i : Nat} {d : Decl} (hd : ds[i]? = some d)
    {o : Opt} (ho : o ∈ options i d) (hc : ∀ c, o.action ≠ .const c) : cbOf d o.flag = Option.none := by
  cases hcb : cbOf d o.flag with
  | none => rfl
  | some c =>
    have := h.action hd (cbOf_some (i := i) hcb) ho rfl
    exact absurd (by rw [← this]) (hc c)

/-- names that are not options of a declaration -/
theorem foreign {d : Decl} {f : Str} (h : f ∉ flagsOf d) :
    cbOf d f = Option.none ∧ d.arg ≠ some f ∧ d.append ≠ some f := by
  simp only [flagsOf, List.mem_append, not_or, Option.mem_toList, Option.mem_def] at h
  obtain ⟨⟨⟨⟨⟨h1, h2⟩, h3⟩, h4⟩, h5⟩, h6⟩ := h
  exact ⟨by simp [cbOf, h3, h4, h5, h6], h1, h2⟩

theorem argStep_foreign {d : Decl} {x : Occ} (cur : Option Val) (h : x.flag ∉ flagsOf d) : argStep d cur x = cur := by
  obtain ⟨-, h1, h2⟩ := foreign h
  unfold argStep
  split
  · rfl
  · rw [if_neg h1, if_neg h2]

/-- one occurrence -/
theorem act_spec {ds : List Decl} {os : List Opt} (h : Parser ds os) {i : Nat} {d : Decl} (hd : ds[i]? = some d)
    {x : Occ} {o : Opt} (ho : os.find? (fun p => p.flag = x.flag) = some o) {a b : Args} (ha : act o x.value a = some b) :
    b.args i = argStep d (a.args i) x ∧ b.callbacks i = a.callbacks i ++ (cbOf d x.flag).toList ∧
    b.overrides = a.overrides ++ (if x.flag = "-o".toList then x.value.toList else []) ∧ b.rest = a.rest := by
  obtain ⟨hfl, hcase⟩ := h.found ho
  rcases hcase with rfl | ⟨d', hd', hod⟩
  · -- the override
    have hfo : x.flag ∉ flagsOf d := by rw [← hfl]; exact h.notOverride hd
    cases hv : x.value with
    | none => rw [hv] at ha; simp [act] at ha
    | some v =>
      rw [hv] at ha
      simp only [act, Option.some.injEq] at ha
      subst ha
      simp only at hfl
      refine ⟨(argStep_foreign _ hfo).symm, ?_, ?_, rfl⟩
      · rw [(foreign hfo).1]; simp
      · rw [if_pos hfl.symm]; rfl
  · have hno : x.flag ≠ "-o".toList := by
      intro he
      rw [he, h.override] at ho
      cases ho
      exact (options_dest _ _ _ hod).2 rfl
    rw [if_neg hno]
    by_cases hi : o.dest = i
    · have hdd : d' = d := by rw [hi, hd] at hd'; cases hd'; rfl
      rw [hdd, hi] at hod
      obtain ⟨f, j, ac⟩ := o
      simp only at hfl hi hod
      subst hfl hi
      cases ac with
      | store =>
        have hc := cbOf_none_of_store h hd hod (by simp)
        cases hv : x.value with
        | none => rw [hv] at ha; simp [act] at ha
        | some v =>
          rw [hv] at ha
          simp only [act, Option.some.injEq] at ha
          subst ha
          simp only at hc
          simp [argStep, hv, options_store.1 hod, hc]
      | append =>
        have hc := cbOf_none_of_store h hd hod (by simp)
        have harg : d.arg ≠ some x.flag := by
          intro he
          have := h.action hd (options_store.2 he) hod rfl
          injection this with _ _ h3
          cases h3
        cases hv : x.value with
        | none => rw [hv] at ha; simp [act] at ha
        | some v =>
          rw [hv] at ha
          simp only at hc
          simp only [act] at ha
          split at ha
          · next hg =>
            cases ha
            simp [argStep, hv, harg, options_append.1 hod, hc, hg]
          · next l hg =>
            cases ha
            simp [argStep, hv, harg, options_append.1 hod, hc, hg]
          · cases ha
      | const c =>
        have hc := cbOf_const h hd hod
        cases hv : x.value with
        | some v => rw [hv] at ha; simp [act] at ha
        | none =>
          rw [hv] at ha
          simp only [act, Option.some.injEq] at ha
          subst ha
          simp [argStep, hv, hc]
      | override => exact absurd rfl (options_dest _ _ _ hod).2
    · have hfo : x.flag ∉ flagsOf d := by
        intro hf
        obtain ⟨o', h1, h2, -⟩ := h.own hd hf
        rw [ho] at h1
        cases h1
        exact hi (options_dest _ _ _ h2).1
      rw [argStep_foreign _ hfo, (foreign hfo).1]
      have hi' : i ≠ o.dest := fun e => hi e.symm
      unfold act at ha
      split at ha
      · cases ha; simp [hi']
      · split at ha
        · cases ha; simp [hi']
        · cases ha; simp [hi']
        · cases ha
      · cases ha; simp [hi']
      · next heq _ => exact absurd heq (options_dest _ _ _ hod).2
      · cases ha

/-- **the parsed arguments** of a declaration are made of its own occurrences, in order -/
theorem parse_spec {ds : List Decl} {os : List Opt} (h : Parser ds os) {i : Nat} {d : Decl} (hd : ds[i]? = some d)
    (xs : List Occ) : ∀ (a b : Args), parse os xs a = some b →
    b.args i = xs.foldl (argStep d) (a.args i) ∧ b.callbacks i = a.callbacks i ++ xs.filterMap (fun x => cbOf d x.flag) ∧
    b.overrides = a.overrides ++ (xs.filter (fun x => x.flag = "-o".toList)).filterMap (·.value) ∧
    b.rest = a.rest ++ xs.filter (fun x => (os.find? (fun p => p.flag = x.flag)).isNone) := by
  induction xs with
  | nil => intro a b hp; simp only [parse, Option.some.injEq] at hp; subst hp; simp
  | cons x xs ih =>
    intro a b hp
    unfold parse at hp
    cases ho : os.find? (fun o => o.flag = x.flag) with
    | none =>
      rw [ho] at hp
      simp only at hp
      obtain ⟨h1, h2, h3, h4⟩ := ih _ _ hp
      have hfo : x.flag ∉ flagsOf d := by
        intro hf
        obtain ⟨o', h1, -⟩ := h.own hd hf
        rw [ho] at h1; cases h1
      have hno : x.flag ≠ "-o".toList := by
        intro he
        rw [he, h.override] at ho; cases ho
      refine ⟨?_, ?_, ?_, ?_⟩
      · rw [h1, List.foldl_cons, argStep_foreign _ hfo]
      · rw [h2]; simp [List.filterMap_cons, (foreign hfo).1]
      · rw [h3, List.filter_cons_of_neg (by simpa using hno)]
      · rw [h4, List.filter_cons_of_pos (by simp [ho])]; simp
    | some o =>
      rw [ho] at hp
      simp only at hp
      cases hac : act o x.value a with
      | none => rw [hac] at hp; cases hp
      | some a1 =>
        rw [hac] at hp
        simp only [Option.bind_some] at hp
        obtain ⟨h1, h2, h3, h4⟩ := ih _ _ hp
        obtain ⟨g1, g2, g3, g4⟩ := act_spec h hd ho hac
        refine ⟨?_, ?_, ?_, ?_⟩
        · rw [h1, g1, List.foldl_cons]
        · rw [h2, g2]
          cases hcb : cbOf d x.flag with
          | none => simp [List.filterMap_cons, hcb]
          | some c => simp [List.filterMap_cons, hcb]
        · rw [h3, g3]
          by_cases hx : x.flag = "-o".toList
          · rw [if_pos hx, List.filter_cons_of_pos (by simpa using hx)]
            cases hv : x.value with
            | none => rw [List.filterMap_cons_none hv]; simp
            | some v => rw [List.filterMap_cons_some hv]; simp
          · rw [if_neg hx, List.filter_cons_of_neg (by simpa using hx)]; simp
        · rw [h4, g4, List.filter_cons_of_neg (by simp [ho])]

/-- an occurrence has an argument iff its option takes one -/
def Proper (os : List Opt) (x : Occ) : Prop :=
  ∀ o, os.find? (fun p => p.flag = x.flag) = some o → (x.value.isSome = true ↔ ∀ c, o.action ≠ .const c)

/-- arguments of declarations that are appended to are lists -/
def ListArgs (ds : List Decl) (a : Args) : Prop :=
  ∀ i d, ds[i]? = some d → d.append.isSome = true → ∀ v, a.args i = some v → ∃ l, v = .list l

theorem act_total {ds : List Decl} {os : List Opt} (h : Parser ds os) (hm : ∀ d ∈ ds, d.arg = Option.none ∨ d.append = Option.none)
    {x : Occ} {o : Opt} (ho : os.find? (fun p => p.flag = x.flag) = some o) {a : Args} (hl : ListArgs ds a) :
    (Proper os x → ∃ b, act o x.value a = some b ∧ ListArgs ds b) ∧ (¬ Proper os x → act o x.value a = Option.none) := by
  have hpo : Proper os x ↔ (x.value.isSome = true ↔ ∀ c, o.action ≠ .const c) := by
    constructor
    · intro hp; exact hp o ho
    · intro hp o' ho'; rw [ho] at ho'; cases ho'; exact hp
  rw [hpo]
  have step : ∀ b : Args, act o x.value a = some b → ListArgs ds b := by
    intro b hb i d hd hap v hv
    have := (act_spec h hd ho hb).1
    rw [this] at hv
    unfold argStep at hv
    split at hv
    · exact hl i d hd hap v hv
    · split at hv
      · next w hw harg =>
        rcases hm d (List.mem_of_getElem? hd) with h' | h'
        · rw [h'] at harg; cases harg
        · rw [h'] at hap; cases hap
      · split at hv
        · split at hv <;> (cases hv; exact ⟨_, rfl⟩)
        · exact hl i d hd hap v hv
  have hsome : ∀ b, act o x.value a = some b → ∃ b, act o x.value a = some b ∧ ListArgs ds b := fun b hb => ⟨b, hb, step b hb⟩
  obtain ⟨f, j, ac⟩ := o
  cases ac with
  | store =>
    constructor
    · intro hp
      obtain ⟨v, hv⟩ := Option.isSome_iff_exists.1 (hp.2 (by simp))
      exact hsome _ (by rw [hv]; rfl)
    · intro hp
      cases hv : x.value with
      | none => rfl
      | some v => rw [hv] at hp; simp at hp
  | append =>
    constructor
    · intro hp
      obtain ⟨v, hv⟩ := Option.isSome_iff_exists.1 (hp.2 (by simp))
      obtain ⟨-, hc⟩ := h.found ho
      rcases hc with hc | ⟨d, hd, hod⟩
      · cases hc
      · have hap := options_append.1 hod
        cases hg : a.args j with
        | none => exact hsome { a with args := fun i => if i = j then some (.list [v]) else a.args i } (by rw [hv]; simp [act, hg])
        | some w =>
          obtain ⟨l, rfl⟩ := hl j d hd (by simp [hap]) w hg
          exact hsome { a with args := fun i => if i = j then some (.list (l ++ [v])) else a.args i } (by rw [hv]; simp [act, hg])
    · intro hp
      cases hv : x.value with
      | none => rfl
      | some v => rw [hv] at hp; simp at hp
  | const c =>
    constructor
    · intro hp
      have : x.value = Option.none := by
        cases hv : x.value with
        | none => rfl
        | some v => rw [hv] at hp; exact absurd rfl ((hp.1 rfl) c)
      exact hsome _ (by rw [this]; rfl)
    · intro hp
      cases hv : x.value with
      | none => rw [hv] at hp; simp at hp
      | some v => rfl
  | override =>
    constructor
    · intro hp
      obtain ⟨v, hv⟩ := Option.isSome_iff_exists.1 (hp.2 (by simp))
      exact hsome _ (by rw [hv]; rfl)
    · intro hp
      cases hv : x.value with
      | none => rfl
      | some v => rw [hv] at hp; simp at hp

theorem parse_total {ds : List Decl} {os : List Opt} (h : Parser ds os) (hm : ∀ d ∈ ds, d.arg = Option.none ∨ d.append = Option.none)
    (xs : List Occ) : ∀ a, ListArgs ds a → ((parse os xs a).isSome = true ↔ ∀ x ∈ xs, Proper os x) := by
  induction xs with
  | nil => intro a _; simp [parse]
  | cons x xs ih =>
    intro a hl
    unfold parse
    cases ho : os.find? (fun o => o.flag = x.flag) with
    | none =>
      simp only
      rw [ih _ (show ListArgs ds { a with rest := a.rest ++ [x] } from hl)]
      have : Proper os x := by intro o ho'; rw [ho] at ho'; cases ho'
      simp [this]
    | some o =>
      obtain ⟨h1, h2⟩ := act_total h hm ho hl
      simp only
      by_cases hp : Proper os x
      · obtain ⟨b, hb, hlb⟩ := h1 hp
        rw [hb]
        simp only [Option.bind_some, List.mem_cons, forall_eq_or_imp, hp, true_and]
        exact ih b hlb
      · rw [h2 hp]
        simp [hp]

end Slash.Flags
