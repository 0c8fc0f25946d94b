import Verif.Lemmas.TestRun
/-!
# Running one test: properties C93, C94, C95
-/
namespace Slash.TestRun

open Slash.Fix (Env Base)

/-- the events a step added -/
def since (st st' : St) : List Ev := st'.trace.drop st.trace.length

/-- the end callbacks of a fixture value that were called -/
def finsOf (n : Nat) (l : List Ev) : List Nat := l.filterMap (fun e => match e with
  | .fin m t => if m = n then some t else none
  | _ => none)

/-- the functions of the test that were called -/
def callsOf (l : List Ev) : List Part := l.filterMap (fun e => match e with
  | .call p => some p
  | _ => none)

/-- the environment of a test -/
abbrev env (D : Nat → FG.FDef) (B : Nat → Nat → Fix.Body) (P : Nat → List Nat) (v : Nat → Nat) : Env :=
  { defs := D, params := P, var := v, body := B }

/-- In this part of a session, `after` was called in each test of a class whose `before` was called and did not raise. -/
def AfterCalled (D : Nat → FG.FDef) (B : Nat → Nat → Fix.Body) (R : Nat → Reg) (fuel : Nat) : List Op → St → Prop
  | [], _ => True
  | op :: ops, st =>
    (∀ P v c, op = .cls P v c → c.before.raises = none → .before ∈ callsOf (since st (step D B R fuel op st).2) →
      .after ∈ callsOf (since st (step D B R fuel op st).2)) ∧
    AfterCalled D B R fuel ops (step D B R fuel op st).2

/-- No end callback raises a skip or an interruption. -/
def QuietEnds (R : Nat → Reg) : Prop := ∀ n, ∀ c ∈ (R n).ends, ∀ k, c.raises = some k → k.escapes = false

theorem since_append {st st' : St} {d : List Ev} (h : st'.trace = st.trace ++ d) : since st st' = d := by
  simp [since, h]

theorem fresh_of_ended {D B} {st : St} {s : Fix.St} {s1 : List Nat} {t : List Ev} (hb : Base D B s) (hk : s.keys.Nodup) {R : Nat → Reg}
    (hR : QuietEnds R) : Fresh { st with store := s, started := s1.filter (fun m => !decide (m ∈ ended R (iterActive D s))), trace := t } := by
  intro a ha hm
  have h1 := (List.mem_filter.1 hm).2
  rw [(ended_all hR _).1] at h1
  have : a.value ∈ iterActive D s := (iterActive_perm hb hk).mem_iff.2 (List.mem_map.2 ⟨a, ha, rfl⟩)
  simp [this] at h1

theorem fresh_with_ends {E : Env} {R : Nat → Reg} (hR : QuietEnds R) (fuel : Nat) (p : Part) (f : Fn) (ts : Bool) {st : St}
    (h : Inv E.defs E.body st) (hf : Fresh st) : Fresh (callWith E R fuel p f ts true st).2 := by
  have hl := later_setup E fuel f.needs st.store
  have hb := base_setup (fuel := fuel) (fs := f.needs) h.base
  cases hs : Fix.setup E fuel f.needs st.store with
  | mk r s =>
    rw [hs] at hl hb
    cases r with
    | error e => rw [callWith_error hs]; exact hf.later h hl
    | ok vs =>
      rw [callWith_ok_end hs]
      obtain ⟨d, s', h1, -, -⟩ := mid_gen E R p f ts s st
      rw [h1]
      exact fresh_of_ended (st := st) hb (hl.keys h.keys) hR

/-- what a test of a class does, if `before` is called and does not raise -/
theorem runClass_eq {E : Env} {R : Nat → Reg} {fuel : Nat} {c : Cls} {st st1 : St} (h : callWith E R fuel .before c.before false false st = (none, st1)) :
    runClass E R fuel c st =
      (let m := handling (noGenerator c.method (callWith E R fuel .test c.method true false st1).1, (callWith E R fuel .test c.method true false st1).2)
       let a := handling (callWith E R fuel .after c.after false true m.2)
       (match a.1 with | some x => some x | none => m.1, a.2)) := by
  unfold runClass
  rw [h]
  simp only
  generalize handling (callWith E R fuel .after c.after false true (handling (noGenerator c.method (callWith E R fuel .test c.method true false st1).1, (callWith E R fuel .test c.method true false st1).2)).2) = r
  rcases r with ⟨x, s⟩
  cases x <;> rfl

theorem before_cases (E : Env) (R : Nat → Reg) (fuel : Nat) (f : Fn) (st : St) :
    (∃ x s, callWith E R fuel .before f false false st = (some x, { st with store := s }) ∧ Later st.store s) ∨
    (∃ s, callWith E R fuel .before f false false st = (f.raises.map (fun k => { kind := k }), { st with store := s, trace := st.trace ++ [.call .before] }) ∧
      Later st.store s) := by
  have hl := later_setup E fuel f.needs st.store
  cases hs : Fix.setup E fuel f.needs st.store with
  | mk r s =>
    rw [hs] at hl
    cases r with
    | error e => exact .inl ⟨_, s, callWith_error hs, hl⟩
    | ok vs => exact .inr ⟨s, by rw [callWith_ok hs, mid_false], hl⟩

/-- the events of the method of a class -/
theorem method_events (E : Env) (R : Nat → Reg) (fuel : Nat) (f : Fn) (st : St) : ∃ d,
    (handling (noGenerator f (callWith E R fuel .test f true false st).1, (callWith E R fuel .test f true false st).2)).2.trace = st.trace ++ d ∧
    (∀ e ∈ d, (∃ n t, e = .start n t) ∨ (∃ k, e = .recorded k) ∨ e = .call .test) := by
  obtain ⟨-, -, -, d, h1, h2⟩ := handling_store (noGenerator f (callWith E R fuel .test f true false st).1, (callWith E R fuel .test f true false st).2)
  rw [h1]
  simp only
  cases hs : Fix.setup E fuel f.needs st.store with
  | mk r s =>
    cases r with
    | error e =>
      rw [callWith_error hs]
      exact ⟨d, rfl, fun e he => .inr (.inl (h2 e he))⟩
    | ok vs =>
      rw [callWith_ok hs]
      obtain ⟨d', s', g1, -, g3⟩ := mid_gen E R .test f true s st
      rw [g1]
      refine ⟨d' ++ d, by simp, ?_⟩
      intro e he
      rcases List.mem_append.1 he with he | he
      · rcases g3 e he with ⟨-, h⟩ | ⟨-, h⟩ | h
        · exact .inl h
        · exact .inr (.inl h)
        · exact .inr (.inr h)
      · exact .inr (.inl (h2 e he))

theorem step_fresh {D : Nat → FG.FDef} {B : Nat → Nat → Fix.Body} {R : Nat → Reg} (hR : QuietEnds R) {fuel : Nat} {op : Op} {st : St}
    (h : Inv D B st) (hf : Fresh st)
    (hc : ∀ P v c, op = .cls P v c → c.before.raises = none → .before ∈ callsOf (since st (step D B R fuel op st).2) →
      .after ∈ callsOf (since st (step D B R fuel op st).2)) : Fresh (step D B R fuel op st).2 := by
  cases op with
  | function P v f => exact fresh_with_ends (E := env D B P v) hR fuel .test f true h hf
  | scopeEnd s i =>
    have hl := later_popScope D s i st.store
    simp only [step]
    generalize Fix.popScope D s i st.store = r at hl ⊢
    rcases r with ⟨x, s⟩
    cases x <;> exact hf.later h hl
  | cls P v c =>
    have hc := hc P v c rfl
    simp only [step] at hc ⊢
    rcases before_cases (env D B P v) R fuel c.before st with ⟨x, s, e, hl⟩ | ⟨s, e, hl⟩
    · unfold runClass; rw [e]; exact hf.later h hl
    · cases hr : c.before.raises with
      | some k =>
        rw [hr] at e
        unfold runClass; rw [e]; exact hf.later h hl
      | none =>
        rw [hr] at e
        have hi := callWith_inv (E := env D B P v) R fuel .before c.before false false h
        rw [e] at hi
        rw [runClass_eq e] at hc ⊢
        simp only at hc ⊢
        obtain ⟨d, hd, hd2⟩ := method_events (env D B P v) R fuel c.method { st with store := s, trace := st.trace ++ [.call .before] }
        have him := handling_inv (r := (noGenerator c.method (callWith (env D B P v) R fuel .test c.method true false { st with store := s, trace := st.trace ++ [.call .before] }).1, (callWith (env D B P v) R fuel .test c.method true false { st with store := s, trace := st.trace ++ [.call .before] }).2))
          (callWith_inv (E := env D B P v) R fuel .test c.method true false hi)
        generalize handling (noGenerator c.method (callWith (env D B P v) R fuel .test c.method true false { st with store := s, trace := st.trace ++ [.call .before] }).1, (callWith (env D B P v) R fuel .test c.method true false { st with store := s, trace := st.trace ++ [.call .before] }).2) = m at hc hd him ⊢
        obtain ⟨a1, a2, -, d2, a3, a4⟩ := handling_store (callWith (env D B P v) R fuel .after c.after false true m.2)
        have hla := later_setup (env D B P v) fuel c.after.needs m.2.store
        have hba := base_setup (E := env D B P v) (fuel := fuel) (fs := c.after.needs) him.base
        cases hs : Fix.setup (env D B P v) fuel c.after.needs m.2.store with
        | mk r s2 =>
          rw [hs] at hla hba
          cases r with
          | ok vs =>
            have e1 := callWith_ok_end (R := R) (p := .after) (f := c.after) (ts := false) hs
            rw [mid_false] at e1
            intro a ha
            rw [a1, e1] at ha
            rw [a2, e1]
            exact fresh_of_ended (st := m.2) (t := []) hba (hla.keys him.keys) hR a ha
          | error er =>
            exfalso
            have e1 := callWith_error (R := R) (p := .after) (f := c.after) (ts := false) (te := true) hs
            have ht : (handling (callWith (env D B P v) R fuel .after c.after false true m.2)).2.trace = st.trace ++ ([.call .before] ++ d ++ d2) := by
              rw [a3, e1]; simp [hd]
            have h1 := hc hr
            rw [since_append ht] at h1
            have h2 := h1 (by simp [callsOf])
            unfold callsOf at h2
            obtain ⟨ev, hev, h3⟩ := List.mem_filterMap.1 h2
            cases ev with
            | call p =>
              simp only [Option.some.injEq] at h3
              subst h3
              simp only [List.mem_append, List.mem_cons, List.not_mem_nil, or_false] at hev
              rcases hev with (h' | h') | h'
              · cases h'
              · rcases hd2 _ h' with ⟨n, t, h⟩ | ⟨k, h⟩ | h <;> cases h
              · obtain ⟨k, h⟩ := a4 _ h'; cases h
            | start => simp at h3
            | fin => simp at h3
            | recorded => simp at h3

theorem steps_fresh {D : Nat → FG.FDef} {B : Nat → Nat → Fix.Body} {R : Nat → Reg} (hR : QuietEnds R) {fuel : Nat} {ops : List Op} {st : St}
    (h : Inv D B st) (hf : Fresh st) (hc : AfterCalled D B R fuel ops st) : Fresh (steps D B R fuel ops st) := by
  induction ops generalizing st with
  | nil => exact hf
  | cons op ops ih => exact ih (step_inv R fuel op h) (step_fresh hR h hf hc.1) hc.2

/-! ## C93: start callbacks -/

theorem evsOf_quiet {ev : Nat → Ev} {cs : List Cb} (h : ∀ c ∈ cs, c.raises = none) : evsOf ev cs = cs.map (fun c => ev c.tag) := by
  have h1 : firstRaise cs = none := List.findSome?_eq_none_iff.2 h
  have h2 : upTo (fun c : Cb => c.raises.isSome) cs = cs := upTo_eq_self (fun c hc => by simp [h c hc])
  simp [evsOf, called, h1, h2]

theorem flatMap_quiet {R : Nat → Reg} {l : List Fix.Act} {ns : List Nat} (hp : ns.Perm (l.map (·.value))) {sel : Reg → List Cb} {ev : Nat → Nat → Ev}
    (h : ∀ a ∈ l, ∀ c ∈ sel (R a.value), c.raises = none) :
    ns.flatMap (fun n => evsOf (ev n) (sel (R n))) = ns.flatMap (fun n => (sel (R n)).map (fun c => ev n c.tag)) := by
  have : ∀ n ∈ ns, evsOf (ev n) (sel (R n)) = (sel (R n)).map (fun c => ev n c.tag) := by
    intro n hn
    obtain ⟨a, ha, rfl⟩ := List.mem_map.1 (hp.mem_iff.1 hn)
    exact evsOf_quiet (h a ha)
  clear hp
  induction ns with
  | nil => rfl
  | cons n ns ih =>
    simp only [List.flatMap_cons]
    rw [this n (by simp), ih (fun m hm => this m (by simp [hm]))]

theorem findSome_quiet {R : Nat → Reg} {l : List Fix.Act} {ns : List Nat} (hp : ns.Perm (l.map (·.value)))
    (h : ∀ a ∈ l, ∀ c ∈ (R a.value).starts, c.raises = none) : ns.findSome? (fun n => firstRaise (R n).starts) = none := by
  refine List.findSome?_eq_none_iff.2 (fun n hn => ?_)
  obtain ⟨a, ha, rfl⟩ := List.mem_map.1 (hp.mem_iff.1 hn)
  exact List.findSome?_eq_none_iff.2 (h a ha)

/-- the marks of active fixtures after a setup -/
theorem fresh_setup {E : Env} {st : St} {fuel : Nat} {fs : List Nat} (h : Inv E.defs E.body st) (hf : Fresh st) {vs : Except Fix.Err (List Nat)} {s : Fix.St}
    (hs : Fix.setup E fuel fs st.store = (vs, s)) : Base E.defs E.body s ∧ s.keys.Nodup ∧ Later st.store s ∧ ∀ n ∈ iterActive E.defs s, n ∉ st.started := by
  have hl := later_setup E fuel fs st.store
  have hb := base_setup (fuel := fuel) (fs := fs) h.base
  rw [hs] at hl hb
  have hk := hl.keys h.keys
  refine ⟨hb, hk, hl, fun n hn => ?_⟩
  obtain ⟨a, ha, rfl⟩ := List.mem_map.1 ((iterActive_perm hb hk).mem_iff.1 hn)
  exact (hf.later h hl) a ha

theorem fins_ends (R : Nat → Reg) (ns : List Nat) : ∀ e ∈ ns.flatMap (fun n => evsOf (.fin n) (R n).ends), (∃ n t, e = .fin n t) ∨ ∃ k, e = .recorded k := by
  intro e he
  obtain ⟨n, -, he⟩ := List.mem_flatMap.1 he
  unfold evsOf at he
  rcases List.mem_append.1 he with he | he
  · obtain ⟨t, -, rfl⟩ := List.mem_map.1 he; exact .inl ⟨_, _, rfl⟩
  · obtain ⟨t, -, rfl⟩ := List.mem_map.1 he; exact .inr ⟨_, rfl⟩

/-- C93, function tests: at any point of any session in which no end callback raised a skip or an interruption and `after` was
called wherever `before` succeeded: when the fixtures of a test are available and no start callback raises, all the start
callbacks of all the active fixtures are called, each once, those of one fixture in the order they were registered, and all of
them before the test function; whatever comes after is end callbacks. Without the restrictions on the past:
`C93_skipped_violated`, `C93_skip_violated`. -/
theorem C93_starts_partial (D : Nat → FG.FDef) (B : Nat → Nat → Fix.Body) (R : Nat → Reg) (hR : QuietEnds R) (fuel : Nat) (ops : List Op)
    (hc : AfterCalled D B R fuel ops {}) (P : Nat → List Nat) (v : Nat → Nat) (f : Fn) (vs : List Nat) (s : Fix.St)
    (hs : Fix.setup (env D B P v) fuel f.needs (steps D B R fuel ops {}).store = (.ok vs, s))
    (hno : ∀ a ∈ s.active, ∀ c ∈ (R a.value).starts, c.raises = none) :
    ∃ (ns : List Nat) (d : List Ev), ns.Perm (s.active.map (·.value)) ∧
      (step D B R fuel (.function P v f) (steps D B R fuel ops {})).2.trace = (steps D B R fuel ops {}).trace ++
        ns.flatMap (fun n => (R n).starts.map (fun c => .start n c.tag)) ++ [.call .test] ++ d ∧
      ∀ e ∈ d, (∃ n t, e = .fin n t) ∨ ∃ k, e = .recorded k := by
  have hi := steps_inv (D := D) (B := B) R fuel ops (Inv.init D B)
  have hf := steps_fresh (fuel := fuel) hR (Inv.init D B) (by intro a ha; simp at ha) hc
  generalize steps D B R fuel ops {} = st at *
  obtain ⟨hb, hk, hl, hns⟩ := fresh_setup (E := env D B P v) hi hf hs
  have hp := iterActive_perm hb hk
  refine ⟨iterActive D s, (ended R (iterActive D s)).flatMap (fun n => evsOf (.fin n) (R n).ends), hp, ?_, fins_ends R _⟩
  simp only [step, runFunction]
  rw [callWith_ok_end hs, mid_fresh (iterActive_nodup hb hk) hns, findSome_quiet hp hno,
    flatMap_quiet (sel := Reg.starts) (ev := fun n t => .start n t) hp hno]

/-- C93, tests of classes: the same, with `before` called before the start callbacks, and `after` before the end callbacks. -/
theorem C93_class_partial (D : Nat → FG.FDef) (B : Nat → Nat → Fix.Body) (R : Nat → Reg) (hR : QuietEnds R) (fuel : Nat) (ops : List Op)
    (hc : AfterCalled D B R fuel ops {}) (P : Nat → List Nat) (v : Nat → Nat) (c : Cls) (vs ws : List Nat) (s1 s : Fix.St)
    (hs1 : Fix.setup (env D B P v) fuel c.before.needs (steps D B R fuel ops {}).store = (.ok vs, s1)) (hr : c.before.raises = none)
    (hs : Fix.setup (env D B P v) fuel c.method.needs s1 = (.ok ws, s))
    (hno : ∀ a ∈ s.active, ∀ cb ∈ (R a.value).starts, cb.raises = none) :
    ∃ (ns : List Nat) (d : List Ev), ns.Perm (s.active.map (·.value)) ∧
      (step D B R fuel (.cls P v c) (steps D B R fuel ops {})).2.trace = (steps D B R fuel ops {}).trace ++ [.call .before] ++
        ns.flatMap (fun n => (R n).starts.map (fun c => .start n c.tag)) ++ [.call .test] ++ d ∧
      ∀ e ∈ d, (∃ n t, e = .fin n t) ∨ (∃ k, e = .recorded k) ∨ e = .call .after := by
  have hi := steps_inv (D := D) (B := B) R fuel ops (Inv.init D B)
  have hf := steps_fresh (fuel := fuel) hR (Inv.init D B) (by intro a ha; simp at ha) hc
  generalize steps D B R fuel ops {} = st at *
  obtain ⟨hb1, hk1, hl1, -⟩ := fresh_setup (E := env D B P v) hi hf hs1
  have hf1 : Fresh { st with store := s1, trace := st.trace ++ [.call .before] } := hf.later hi hl1
  have hi1 : Inv D B { st with store := s1, trace := st.trace ++ [.call .before] } := ⟨hb1, hk1, fun n hn => (hi.later hl1 hb1).lt n hn⟩
  have e1 : callWith (env D B P v) R fuel .before c.before false false st = (none, { st with store := s1, trace := st.trace ++ [.call .before] }) := by
    rw [callWith_ok hs1, mid_false, hr]; rfl
  obtain ⟨hb, hk, hl, hns⟩ := fresh_setup (E := env D B P v) hi1 hf1 hs
  have hp := iterActive_perm hb hk
  simp only [step]
  rw [runClass_eq e1]
  simp only
  have e2 : callWith (env D B P v) R fuel .test c.method true false { st with store := s1, trace := st.trace ++ [.call .before] } =
      (c.method.raises.map (fun k => { kind := k }), { store := s, started := (iterActive D s).reverse ++ st.started, trace := st.trace ++ [.call .before] ++ (iterActive D s).flatMap (fun n => (R n).starts.map (fun c => .start n c.tag)) ++ [.call .test] }) := by
    rw [callWith_ok hs, mid_fresh (iterActive_nodup hb hk) hns, findSome_quiet hp hno,
      flatMap_quiet (sel := Reg.starts) (ev := fun n t => .start n t) hp hno]
  rw [e2]
  obtain ⟨-, -, -, d1, h1, h2⟩ := handling_store (noGenerator c.method (c.method.raises.map (fun k => ({ kind := k } : Exn))), ({ store := s, started := (iterActive D s).reverse ++ st.started, trace := st.trace ++ [.call .before] ++ (iterActive D s).flatMap (fun n => (R n).starts.map (fun c => .start n c.tag)) ++ [.call .test] } : St))
  generalize handling (noGenerator c.method (c.method.raises.map (fun k => ({ kind := k } : Exn))), ({ store := s, started := (iterActive D s).reverse ++ st.started, trace := st.trace ++ [.call .before] ++ (iterActive D s).flatMap (fun n => (R n).starts.map (fun c => .start n c.tag)) ++ [.call .test] } : St)) = m at h1 ⊢
  simp only at h1
  obtain ⟨-, -, -, d2, h3, h4⟩ := handling_store (callWith (env D B P v) R fuel .after c.after false true m.2)
  rw [h3]
  cases hsa : Fix.setup (env D B P v) fuel c.after.needs m.2.store with
  | mk r s2 =>
    cases r with
    | error e =>
      rw [callWith_error hsa]
      refine ⟨iterActive D s, d1 ++ d2, hp, ?_, ?_⟩
      · simp [h1]
      · intro e he
        rcases List.mem_append.1 he with he | he
        · exact .inr (.inl (h2 e he))
        · exact .inr (.inl (h4 e he))
    | ok us =>
      rw [callWith_ok_end hsa, mid_false]
      refine ⟨iterActive D s, d1 ++ [.call .after] ++ (ended R (iterActive D s2)).flatMap (fun n => evsOf (.fin n) (R n).ends) ++ d2, hp, ?_, ?_⟩
      · simp [h1]
      · intro e he
        simp only [List.mem_append, List.mem_cons, List.not_mem_nil, or_false] at he
        rcases he with ((he | he) | he) | he
        · exact .inr (.inl (h2 e he))
        · exact .inr (.inr he)
        · exact (fins_ends R _ e he).elim .inl (fun h => .inr (.inl h))
        · exact .inr (.inl (h4 e he))

theorem firstRaise_some {cs : List Cb} {k : Kind} (h : firstRaise cs = some k) : ∃ c ∈ cs, c.raises = some k ∧ c.tag ∈ called cs := by
  induction cs with
  | nil => simp [firstRaise] at h
  | cons c cs ih =>
    cases hr : c.raises with
    | some k' =>
      simp only [firstRaise, List.findSome?_cons, hr, Option.some.injEq] at h
      subst h
      exact ⟨c, by simp, hr, by simp [called, upTo, hr]⟩
    | none =>
      simp only [firstRaise, List.findSome?_cons, hr] at h
      obtain ⟨c', h1, h2, h3⟩ := ih h
      refine ⟨c', by simp [h1], h2, ?_⟩
      unfold called at h3 ⊢
      simp only [upTo, hr, Option.isSome_none, Bool.false_eq_true, if_false, List.map_cons, List.mem_cons]
      exact .inr h3

theorem begun_last {R : Nat → Reg} {ns : List Nat} {k : Kind} (h : ns.findSome? (fun n => firstRaise (R n).starts) = some k) :
    ∃ n ∈ begun R ns, firstRaise (R n).starts = some k := by
  induction ns with
  | nil => simp at h
  | cons n ns ih =>
    cases hr : firstRaise (R n).starts with
    | some k' =>
      simp only [List.findSome?_cons, hr, Option.some.injEq] at h
      subst h
      exact ⟨n, by simp [begun, upTo, hr], hr⟩
    | none =>
      simp only [List.findSome?_cons, hr] at h
      obtain ⟨m, h1, h2⟩ := ih h
      refine ⟨m, ?_, h2⟩
      unfold begun at h1 ⊢
      simp only [upTo, hr, Option.isSome_none, Bool.false_eq_true, if_false, List.mem_cons]
      exact .inr h1

theorem callsOf_append (a b : List Ev) : callsOf (a ++ b) = callsOf a ++ callsOf b := by simp [callsOf]

theorem callsOf_nil {l : List Ev} (h : ∀ e ∈ l, (∃ n t, e = .start n t) ∨ (∃ n t, e = .fin n t) ∨ ∃ k, e = .recorded k) : callsOf l = [] := by
  unfold callsOf
  rw [List.filterMap_eq_nil_iff]
  intro e he
  rcases h e he with ⟨n, t, rfl⟩ | ⟨n, t, rfl⟩ | ⟨k, rfl⟩ <;> rfl

theorem starts_evs (R : Nat → Reg) (ns : List Nat) : ∀ e ∈ ns.flatMap (fun n => evsOf (.start n) (R n).starts), (∃ n t, e = .start n t) ∨ ∃ k, e = .recorded k := by
  intro e he
  obtain ⟨n, -, he⟩ := List.mem_flatMap.1 he
  unfold evsOf at he
  rcases List.mem_append.1 he with he | he
  · obtain ⟨t, -, rfl⟩ := List.mem_map.1 he; exact .inl ⟨_, _, rfl⟩
  · obtain ⟨t, -, rfl⟩ := List.mem_map.1 he; exact .inr ⟨_, rfl⟩

/-- C93, raising callbacks: if a start callback of an active fixture raises, the test function is not called, and the exception
of a start callback that was called is recorded and leaves the test as an exception. -/
theorem C93_raises_partial (D : Nat → FG.FDef) (B : Nat → Nat → Fix.Body) (R : Nat → Reg) (hR : QuietEnds R) (fuel : Nat) (ops : List Op)
    (hc : AfterCalled D B R fuel ops {}) (P : Nat → List Nat) (v : Nat → Nat) (f : Fn) (vs : List Nat) (s : Fix.St)
    (hs : Fix.setup (env D B P v) fuel f.needs (steps D B R fuel ops {}).store = (.ok vs, s))
    (a : Fix.Act) (ha : a ∈ s.active) (cb : Cb) (hcb : cb ∈ (R a.value).starts) (hraise : cb.raises ≠ none) :
    ∃ d, (step D B R fuel (.function P v f) (steps D B R fuel ops {})).2.trace = (steps D B R fuel ops {}).trace ++ d ∧
      .call .test ∉ d ∧
      ∃ b ∈ s.active, ∃ c ∈ (R b.value).starts, ∃ k, c.raises = some k ∧ .start b.value c.tag ∈ d ∧ .recorded k ∈ d ∧
        (step D B R fuel (.function P v f) (steps D B R fuel ops {})).1 = some { kind := k, handled := true } := by
  have hi := steps_inv (D := D) (B := B) R fuel ops (Inv.init D B)
  have hf := steps_fresh (fuel := fuel) hR (Inv.init D B) (by intro a ha; simp at ha) hc
  generalize steps D B R fuel ops {} = st at *
  obtain ⟨hb, hk, hl, hns⟩ := fresh_setup (E := env D B P v) hi hf hs
  have hp := iterActive_perm hb hk
  have hsome : (iterActive D s).findSome? (fun n => firstRaise (R n).starts) ≠ none := by
    intro h
    have h1 := List.findSome?_eq_none_iff.1 h a.value (hp.mem_iff.2 (List.mem_map.2 ⟨a, ha, rfl⟩))
    exact hraise (List.findSome?_eq_none_iff.1 h1 cb hcb)
  obtain ⟨k, hk'⟩ := Option.ne_none_iff_exists'.1 hsome
  obtain ⟨n, hn, hn2⟩ := begun_last hk'
  obtain ⟨c, hc1, hc2, hc3⟩ := firstRaise_some hn2
  have hn' : n ∈ iterActive D s := (upTo_prefix _ _).subset hn
  obtain ⟨b, hb1, hb2⟩ := List.mem_map.1 (hp.mem_iff.1 hn')
  subst hb2
  have hbev : ∀ e ∈ evsOf (.start b.value) (R b.value).starts, e ∈ (begun R (iterActive D s)).flatMap (fun n => evsOf (.start n) (R n).starts) :=
    fun e he => List.mem_flatMap.2 ⟨b.value, hn, he⟩
  simp only [step, runFunction]
  rw [callWith_ok_end hs, mid_fresh (iterActive_nodup hb hk) hns, hk', (ended_all hR _).2]
  refine ⟨_, List.append_assoc _ _ _, ?_, b, hb1, c, hc1, k, hc2, ?_, ?_, rfl⟩
  · intro hm
    rcases List.mem_append.1 hm with hm | hm
    · rcases starts_evs R _ _ hm with ⟨n, t, h⟩ | ⟨k, h⟩ <;> cases h
    · rcases fins_ends R _ _ hm with ⟨n, t, h⟩ | ⟨k, h⟩ <;> cases h
  · exact List.mem_append_left _ (hbev _ (List.mem_append_left _ (List.mem_map.2 ⟨c.tag, hc3, rfl⟩)))
  · exact List.mem_append_left _ (hbev _ (List.mem_append_right _ (by simp [hn2])))

/-- Two fixtures, the second for all the tests of a module, both with callbacks; the first test fails. -/
def exDefs : Nat → FG.FDef := fun f => { scope := if f = 1 then 1 else 0 }
def exReg : Nat → Reg := fun n => { starts := [{ tag := 10 * n }, { tag := 10 * n + 1 }], ends := [{ tag := 10 * n + 5 }] }

example : (steps exDefs (fun _ _ => {}) exReg 5 [.function (fun _ => []) (fun _ => 0) { needs := [1, 2], raises := some .failure }, .scopeEnd 0 false,
    .cls (fun _ => []) (fun _ => 0) { method := { needs := [1] } }] {}).trace =
    [.start 0 0, .start 0 1, .start 1 10, .start 1 11, .call .test, .fin 0 5, .fin 1 15,
     .call .before, .start 0 0, .start 0 1, .call .test, .call .after, .fin 0 5] := by decide
example : QuietEnds exReg ∧ AfterCalled exDefs (fun _ _ => {}) exReg 5 [.function (fun _ => []) (fun _ => 0) { needs := [1, 2], raises := some .failure }, .scopeEnd 0 false,
    .cls (fun _ => []) (fun _ => 0) { method := { needs := [1] } }] {} := by
  refine ⟨?_, ?_, ?_, ?_, trivial⟩
  · intro n c hc k h
    simp [exReg] at hc
    subst hc
    simp at h
  · intro P v c h; cases h
  · intro P v c h; cases h
  · intro P v c h
    cases h
    intro _ _
    decide

/-- Where the code violates C93: a test of a class whose `after` needs a fixture that cannot be set up leaves the marks of the
fixtures it started; in the next test the start callback of the fixture, which is still active, is not called. -/
theorem C93_skipped_violated :
    let D : Nat → FG.FDef := fun f => { scope := if f = 1 then 1 else 0 }
    let B : Nat → Nat → Fix.Body := fun f _ => { raises := if f = 2 then some .error else none }
    let st := steps D B exReg 5 [.cls (fun _ => []) (fun _ => 0) { method := { needs := [1] }, after := { needs := [2] } }, .scopeEnd 0 false] {}
    st.store.active.map (·.value) = [0] ∧
    since st (step D B exReg 5 (.function (fun _ => []) (fun _ => 0) { needs := [1] }) st).2 = [.call .test, .fin 0 5] := by
  decide

/-- Where the code violates C93: an end callback that skips the test keeps the other fixtures from getting their end callbacks,
and in the next test from getting their start callbacks. -/
theorem C93_skip_violated :
    let D : Nat → FG.FDef := fun _ => { scope := 1 }
    let R : Nat → Reg := fun n => { starts := [{ tag := n }], ends := [{ tag := n, raises := if n = 0 then some .skip else none }] }
    let st := steps D (fun _ _ => {}) R 5 [.function (fun _ => []) (fun _ => 0) { needs := [1, 2] }, .scopeEnd 0 false] {}
    st.trace = [.start 0 0, .start 1 1, .call .test, .fin 0 0, .recorded .skip] ∧ st.store.active.map (·.value) = [0, 1] ∧
    since st (step D (fun _ _ => {}) R 5 (.function (fun _ => []) (fun _ => 0) { needs := [1, 2] }) st).2 =
      [.start 0 0, .call .test, .fin 0 0, .recorded .skip] := by
  decide

/-! ## C94: end callbacks -/

theorem finsOf_append (n : Nat) (a b : List Ev) : finsOf n (a ++ b) = finsOf n a ++ finsOf n b := by simp [finsOf]

theorem finsOf_nil {n : Nat} {l : List Ev} (h : ∀ e ∈ l, ∀ t, e ≠ .fin n t) : finsOf n l = [] := by
  unfold finsOf
  rw [List.filterMap_eq_nil_iff]
  intro e he
  cases e with
  | fin m t =>
    simp only
    split
    · rename_i e; subst e; exact absurd rfl (h _ he t)
    · rfl
  | _ => rfl

theorem finsOf_evsOf (n m : Nat) (cs : List Cb) : finsOf n (evsOf (.fin m) cs) = if m = n then called cs else [] := by
  unfold evsOf
  rw [finsOf_append]
  have h2 : finsOf n ((firstRaise cs).toList.map .recorded) = [] := finsOf_nil (by
    intro e he t
    obtain ⟨k, -, rfl⟩ := List.mem_map.1 he
    intro h; cases h)
  rw [h2, List.append_nil]
  induction called cs with
  | nil => simp [finsOf]
  | cons c cs ih =>
    unfold finsOf at ih ⊢
    simp only [List.map_cons, List.filterMap_cons]
    by_cases e : m = n
    · simp only [e, if_true] at ih ⊢; rw [ih]
    · simp only [e, if_false] at ih ⊢; exact ih

theorem finsOf_all (R : Nat → Reg) (ns : List Nat) (hn : ns.Nodup) (n : Nat) (h : n ∈ ns) :
    finsOf n (ns.flatMap (fun n => evsOf (.fin n) (R n).ends)) = called (R n).ends := by
  have none : ∀ ms : List Nat, n ∉ ms → finsOf n (ms.flatMap (fun n => evsOf (.fin n) (R n).ends)) = [] := by
    intro ms
    induction ms with
    | nil => intro _; rfl
    | cons m ms ih =>
      intro hm
      simp only [List.mem_cons, not_or] at hm
      simp only [List.flatMap_cons, finsOf_append, finsOf_evsOf, ih hm.2, List.append_nil]
      rw [if_neg (fun e => hm.1 e.symm)]
  induction ns with
  | nil => simp at h
  | cons m ns ih =>
    obtain ⟨h1, h2⟩ := List.nodup_cons.1 hn
    simp only [List.flatMap_cons, finsOf_append, finsOf_evsOf]
    rcases List.mem_cons.1 h with rfl | h'
    · rw [if_pos rfl, none ns h1, List.append_nil]
    · rw [if_neg (fun e : m = n => h1 (e ▸ h')), ih h2 h', List.nil_append]

theorem called_split {pre post : List Cb} {c : Cb} (h : ∀ x ∈ pre, x.raises = none) (hc : c.raises.isSome) : called (pre ++ c :: post) = (pre ++ [c]).map (·.tag) := by
  induction pre with
  | nil => simp [called, upTo, hc]
  | cons x pre ih =>
    have h1 := h x (by simp)
    have h2 := ih (fun y hy => h y (by simp [hy]))
    unfold called at h2 ⊢
    simp [upTo, h1, h2]

theorem called_quiet {cs : List Cb} (h : ∀ x ∈ cs, x.raises = none) : called cs = cs.map (·.tag) := by
  unfold called
  rw [upTo_eq_self (fun c hc => by simp [h c hc])]

theorem firstRaise_split {pre post : List Cb} {c : Cb} {k : Kind} (h : ∀ x ∈ pre, x.raises = none) (hc : c.raises = some k) : firstRaise (pre ++ c :: post) = some k := by
  induction pre with
  | nil => simp [firstRaise, hc]
  | cons x pre ih =>
    have h2 := ih (fun y hy => h y (by simp [hy]))
    unfold firstRaise at h2 ⊢
    simp only [List.cons_append, List.findSome?_cons, h x (by simp)]
    exact h2

/-- C94, function tests: at any point of any session (start callbacks may have been missed before): when the fixtures of a test
are available, then whatever the start callbacks and the test function do, the end callbacks of each active fixture are called
after everything else, in the order they were registered, each once, up to the first one that raises; its exception is
recorded, and does not affect the other fixtures, if it is not a skip or an interruption. Otherwise:
`C94_rest_violated`, `C94_skip_violated`. -/
theorem C94_ends_partial (D : Nat → FG.FDef) (B : Nat → Nat → Fix.Body) (R : Nat → Reg) (hR : QuietEnds R) (fuel : Nat) (ops : List Op)
    (P : Nat → List Nat) (v : Nat → Nat) (f : Fn) (vs : List Nat) (s : Fix.St)
    (hs : Fix.setup (env D B P v) fuel f.needs (steps D B R fuel ops {}).store = (.ok vs, s)) :
    ∃ d1 d2 : List Ev, (step D B R fuel (.function P v f) (steps D B R fuel ops {})).2.trace = (steps D B R fuel ops {}).trace ++ d1 ++ d2 ∧
      (∀ e ∈ d1, ∀ n t, e ≠ .fin n t) ∧ (∀ e ∈ d2, (∃ n t, e = .fin n t) ∨ ∃ k, e = .recorded k) ∧
      (∀ a ∈ s.active, ∀ pre c post, (R a.value).ends = pre ++ c :: post → (∀ x ∈ pre, x.raises = none) → ∀ k, c.raises = some k →
        finsOf a.value d2 = (pre ++ [c]).map (·.tag) ∧ .recorded k ∈ d2) ∧
      (∀ a ∈ s.active, (∀ x ∈ (R a.value).ends, x.raises = none) → finsOf a.value d2 = (R a.value).ends.map (·.tag)) ∧
      (∀ n t, .fin n t ∈ d2 → ∃ a ∈ s.active, a.value = n) := by
  have hi := steps_inv (D := D) (B := B) R fuel ops (Inv.init D B)
  generalize steps D B R fuel ops {} = st at *
  have hl := later_setup (env D B P v) fuel f.needs st.store
  have hb := base_setup (E := env D B P v) (fuel := fuel) (fs := f.needs) hi.base
  rw [hs] at hl hb
  have hk := hl.keys hi.keys
  have hp := iterActive_perm hb hk
  have hn := iterActive_nodup hb hk
  have hmem : ∀ a ∈ s.active, a.value ∈ iterActive D s := fun a ha => hp.mem_iff.2 (List.mem_map.2 ⟨a, ha, rfl⟩)
  simp only [step, runFunction]
  rw [callWith_ok_end hs]
  obtain ⟨d, s', h1, -, h3⟩ := mid_gen (env D B P v) R .test f true s st
  rw [h1, (ended_all hR _).1]
  refine ⟨d, _, rfl, ?_, fins_ends R _, ?_, ?_, ?_⟩
  · intro e he n t h
    subst h
    rcases h3 _ he with ⟨-, n, t, h⟩ | ⟨-, k, h⟩ | h <;> cases h
  · intro a ha pre c post e hpre k hc
    refine ⟨?_, ?_⟩
    · rw [finsOf_all R _ hn _ (hmem a ha), e, called_split hpre (by simp [hc])]
    · refine List.mem_flatMap.2 ⟨a.value, hmem a ha, List.mem_append_right _ ?_⟩
      rw [e, firstRaise_split hpre hc]
      simp
  · intro a ha h
    rw [finsOf_all R _ hn _ (hmem a ha), called_quiet h]
  · intro n t hm
    obtain ⟨m, hm1, hm2⟩ := List.mem_flatMap.1 hm
    obtain ⟨a, ha, rfl⟩ := List.mem_map.1 (hp.mem_iff.1 hm1)
    refine ⟨a, ha, ?_⟩
    rcases List.mem_append.1 hm2 with h | h
    · obtain ⟨t', -, h⟩ := List.mem_map.1 h; cases h; rfl
    · obtain ⟨k, -, h⟩ := List.mem_map.1 h; cases h

/-- C94, tests of classes: at any point of any session, in a test of a class whose `before` succeeded, whatever the method does:
if the fixtures of `after` are available, the end callbacks of all the fixtures active then are called after `after`, with the
same exceptions as in `C94_ends_partial`. -/
theorem C94_class_partial (D : Nat → FG.FDef) (B : Nat → Nat → Fix.Body) (R : Nat → Reg) (hR : QuietEnds R) (fuel : Nat) (ops : List Op)
    (P : Nat → List Nat) (v : Nat → Nat) (c : Cls) (vs ws : List Nat) (rm : Except Fix.Err (List Nat)) (s1 s2 s : Fix.St)
    (hs1 : Fix.setup (env D B P v) fuel c.before.needs (steps D B R fuel ops {}).store = (.ok vs, s1)) (hr : c.before.raises = none)
    (hs2 : Fix.setup (env D B P v) fuel c.method.needs s1 = (rm, s2))
    (hs : Fix.setup (env D B P v) fuel c.after.needs s2 = (.ok ws, s)) :
    ∃ d1 d2 : List Ev, (step D B R fuel (.cls P v c) (steps D B R fuel ops {})).2.trace = (steps D B R fuel ops {}).trace ++ d1 ++ [.call .after] ++ d2 ∧
      (∀ e ∈ d1, ∀ n t, e ≠ .fin n t) ∧ (∀ e ∈ d2, (∃ n t, e = .fin n t) ∨ ∃ k, e = .recorded k) ∧
      (∀ a ∈ s.active, ∀ pre c post, (R a.value).ends = pre ++ c :: post → (∀ x ∈ pre, x.raises = none) → ∀ k, c.raises = some k →
        finsOf a.value d2 = (pre ++ [c]).map (·.tag) ∧ .recorded k ∈ d2) ∧
      (∀ a ∈ s.active, (∀ x ∈ (R a.value).ends, x.raises = none) → finsOf a.value d2 = (R a.value).ends.map (·.tag)) := by
  have hi := steps_inv (D := D) (B := B) R fuel ops (Inv.init D B)
  generalize steps D B R fuel ops {} = st at *
  have e1 : callWith (env D B P v) R fuel .before c.before false false st = (none, { st with store := s1, trace := st.trace ++ [.call .before] }) := by
    rw [callWith_ok hs1, mid_false, hr]; rfl
  have hi1 := callWith_inv (E := env D B P v) R fuel .before c.before false false hi
  rw [e1] at hi1
  simp only [step]
  rw [runClass_eq e1]
  simp only
  obtain ⟨d, hd, hd2⟩ := method_events (env D B P v) R fuel c.method { st with store := s1, trace := st.trace ++ [.call .before] }
  have him := handling_inv (r := (noGenerator c.method (callWith (env D B P v) R fuel .test c.method true false { st with store := s1, trace := st.trace ++ [.call .before] }).1, (callWith (env D B P v) R fuel .test c.method true false { st with store := s1, trace := st.trace ++ [.call .before] }).2))
    (callWith_inv (E := env D B P v) R fuel .test c.method true false hi1)
  have hst : (handling (noGenerator c.method (callWith (env D B P v) R fuel .test c.method true false { st with store := s1, trace := st.trace ++ [.call .before] }).1, (callWith (env D B P v) R fuel .test c.method true false { st with store := s1, trace := st.trace ++ [.call .before] }).2)).2.store = s2 := by
    rw [(handling_store _).1]
    simp only
    cases rm with
    | error e => rw [callWith_error (st := { st with store := s1, trace := st.trace ++ [.call .before] }) hs2]
    | ok us =>
      rw [callWith_ok (st := { st with store := s1, trace := st.trace ++ [.call .before] }) hs2]
      obtain ⟨d, s', h1, -, -⟩ := mid_gen (env D B P v) R .test c.method true s2 { st with store := s1, trace := st.trace ++ [.call .before] }
      rw [h1]
  generalize handling (noGenerator c.method (callWith (env D B P v) R fuel .test c.method true false { st with store := s1, trace := st.trace ++ [.call .before] }).1, (callWith (env D B P v) R fuel .test c.method true false { st with store := s1, trace := st.trace ++ [.call .before] }).2) = m at hd him hst ⊢
  rw [← hst] at hs
  have hl := later_setup (env D B P v) fuel c.after.needs m.2.store
  have hb := base_setup (E := env D B P v) (fuel := fuel) (fs := c.after.needs) him.base
  rw [hs] at hl hb
  have hk := hl.keys him.keys
  have hp := iterActive_perm hb hk
  have hn := iterActive_nodup hb hk
  have hmem : ∀ a ∈ s.active, a.value ∈ iterActive D s := fun a ha => hp.mem_iff.2 (List.mem_map.2 ⟨a, ha, rfl⟩)
  obtain ⟨-, -, -, dh, a3, a4⟩ := handling_store (callWith (env D B P v) R fuel .after c.after false true m.2)
  rw [a3, callWith_ok_end hs, mid_false, (ended_all hR _).1]
  simp only
  have hdh : ∀ n, finsOf n dh = [] := by
    intro n
    refine finsOf_nil ?_
    intro e he t h
    obtain ⟨k, rfl⟩ := a4 e he
    cases h
  refine ⟨[.call .before] ++ d, _, by rw [hd]; simp only [List.append_assoc]; rfl, ?_, ?_, ?_, ?_⟩
  · intro e he n t h
    subst h
    rcases List.mem_append.1 he with he | he
    · simp at he
    · rcases hd2 _ he with ⟨n, t, h⟩ | ⟨k, h⟩ | h <;> cases h
  · intro e he
    rcases List.mem_append.1 he with he | he
    · exact fins_ends R _ e he
    · exact .inr (a4 e he)
  · intro a ha pre c post e hpre k hc
    refine ⟨?_, ?_⟩
    · rw [finsOf_append, hdh, List.append_nil]
      exact (finsOf_all R _ hn _ (hmem a ha)).trans (by rw [e, called_split hpre (by simp [hc])])
    · refine List.mem_append_left _ (List.mem_flatMap.2 ⟨a.value, hmem a ha, List.mem_append_right _ ?_⟩)
      rw [e, firstRaise_split hpre hc]
      simp
  · intro a ha h
    rw [finsOf_append, hdh, List.append_nil]
    exact (finsOf_all R _ hn _ (hmem a ha)).trans (called_quiet h)

example : (step exDefs (fun _ _ => {}) exReg 5 (.function (fun _ => []) (fun _ => 0) { needs := [1, 2], raises := some .interrupt }) {}).2.trace =
    [.start 0 0, .start 0 1, .start 1 10, .start 1 11, .call .test, .fin 0 5, .fin 1 15] := by decide
example : (step exDefs (fun _ _ => {}) (fun n => { starts := [{ tag := n, raises := if n = 0 then some .error else none }], ends := [{ tag := n, raises := some .failure }] }) 5
    (.function (fun _ => []) (fun _ => 0) { needs := [1, 2] }) {}).2.trace =
    [.start 0 0, .recorded .error, .fin 0 0, .recorded .failure, .fin 1 1, .recorded .failure] := by decide

/-- Where the code violates the full C94: an end callback that raises keeps the later end callbacks of its fixture from being
called; and end callbacks are called although the start callbacks of the fixture were not. -/
theorem C94_rest_violated :
    let R : Nat → Reg := fun _ => { starts := [{ tag := 0 }], ends := [{ tag := 1, raises := some .failure }, { tag := 2 }] }
    let B : Nat → Nat → Fix.Body := fun f _ => { raises := if f = 2 then some .error else none }
    (step exDefs B R 5 (.function (fun _ => []) (fun _ => 0) { needs := [1] }) {}).2.trace = [.start 0 0, .call .test, .fin 0 1, .recorded .failure] ∧
    (step exDefs B R 5 (.cls (fun _ => []) (fun _ => 0) { method := { needs := [1, 2] } }) {}).2.trace =
      [.call .before, .recorded .error, .call .after, .fin 0 1, .recorded .failure] := by
  decide

/-- Where the code violates the full C94: an end callback that skips keeps the end callbacks of other fixtures from being
called, as does an interruption. -/
theorem C94_skip_violated : ∀ k ∈ [Kind.skip, .interrupt],
    let R : Nat → Reg := fun n => { ends := [{ tag := n, raises := if n = 0 then some k else none }] }
    (step exDefs (fun _ _ => {}) R 5 (.function (fun _ => []) (fun _ => 0) { needs := [1, 2] }) {}).2.trace = [.call .test, .fin 0 0, .recorded k] := by
  decide

/-! ## C95: `before` and `after` -/

theorem callStarts_raised (R : Nat → Reg) (ns : List Nat) (st : St) : ∃ d, (callStarts R ns st).2.trace = st.trace ++ d ∧
    (∀ x, (callStarts R ns st).1 = some x → x.handled = true ∧ .recorded x.kind ∈ d) ∧
    ((∀ n ∈ ns, ∀ c ∈ (R n).starts, c.raises = none) → (callStarts R ns st).1 = none) := by
  induction ns generalizing st with
  | nil => exact ⟨[], by simp [callStarts], by simp [callStarts], by simp [callStarts]⟩
  | cons n ns ih =>
    unfold callStarts
    by_cases h : n ∈ st.started
    · have h1 : callStart R n st = (none, st) := by unfold callStart; rw [if_pos h]
      rw [h1]
      obtain ⟨d, h2, h3, h4⟩ := ih st
      exact ⟨d, h2, h3, fun hq => h4 (fun m hm => hq m (by simp [hm]))⟩
    · rw [callStart_eq R n st h]
      cases hr : firstRaise (R n).starts with
      | some k =>
        refine ⟨_, rfl, ?_, ?_⟩
        · intro x hx
          simp only [Option.map_some, Option.some.injEq] at hx
          subst hx
          exact ⟨rfl, by simp [evsOf, hr]⟩
        · intro hq
          obtain ⟨c, hc, h2⟩ := List.exists_of_findSome?_eq_some hr
          rw [hq n (by simp) c hc] at h2
          cases h2
      | none =>
        simp only [Option.map_none]
        obtain ⟨d, h2, h3, h4⟩ := ih { st with started := n :: st.started, trace := st.trace ++ evsOf (.start n) (R n).starts }
        exact ⟨evsOf (.start n) (R n).starts ++ d, by rw [h2]; simp, fun x hx => ⟨(h3 x hx).1, List.mem_append_right _ (h3 x hx).2⟩,
          fun hq => h4 (fun m hm => hq m (by simp [hm]))⟩

theorem mid_calls (E : Env) (R : Nat → Reg) (p : Part) (f : Fn) (s : Fix.St) (st : St) : ∃ d b,
    (mid E R p f true s st).2.trace = st.trace ++ d ++ (if b then [.call p] else []) ∧ callsOf d = [] ∧ (mid E R p f true s st).2.store = s ∧
    (b = false → ∃ x, (mid E R p f true s st).1 = some x ∧ x.handled = true ∧ .recorded x.kind ∈ d) ∧
    (b = true → (mid E R p f true s st).1 = f.raises.map (fun k => { kind := k })) ∧
    ((∀ n ∈ iterActive E.defs s, ∀ c ∈ (R n).starts, c.raises = none) → b = true) := by
  unfold mid
  rw [if_pos rfl]
  obtain ⟨d, s', h1, -, h3⟩ := callStarts_gen R (iterActive E.defs s) { st with store := s }
  obtain ⟨d', g1, g2, g3⟩ := callStarts_raised R (iterActive E.defs s) { st with store := s }
  have hd : d' = d := by rw [h1] at g1; simpa using g1.symm
  subst hd
  have hcalls : callsOf d' = [] := callsOf_nil (fun e he => (h3 e he).elim .inl (fun h => .inr (.inr h)))
  generalize callStarts R (iterActive E.defs s) { st with store := s } = r at h1 g1 g2 g3 ⊢
  rcases r with ⟨x, st1⟩
  simp only at h1
  subst h1
  cases x with
  | some x => exact ⟨d', false, by simp, hcalls, rfl, fun _ => ⟨x, rfl, g2 x rfl⟩, by simp, fun hq => absurd (g3 hq) (by simp)⟩
  | none => exact ⟨d', true, by simp [St.emit], hcalls, rfl, by simp, fun _ => rfl, fun _ => rfl⟩

/-- `handling_exceptions` leaves a recorded exception -/
theorem handling_recorded (r : Option Exn × St) : ∃ d, (handling r).2.trace = r.2.trace ++ d ∧ callsOf d = [] ∧
    (∀ x, r.1 = some x → ∃ y, (handling r).1 = some y ∧ y.kind = x.kind ∧ y.handled = true ∧ (x.handled = false → .recorded x.kind ∈ d)) ∧
    (r.1 = none → (handling r).1 = none) := by
  rcases r with ⟨x, st⟩
  cases x with
  | none => exact ⟨[], by simp [handling], rfl, by simp, fun _ => rfl⟩
  | some x =>
    simp only [handling, handle]
    split
    · rename_i h; exact ⟨[], by simp, rfl, by simp [h], by simp⟩
    · exact ⟨[.recorded x.kind], rfl, rfl, by simp, by simp⟩

theorem endEscapes_recorded {R : Nat → Reg} {ns : List Nat} {k : Kind} (h : ns.findSome? (endEscapes R) = some k) :
    .recorded k ∈ (ended R ns).flatMap (fun n => evsOf (.fin n) (R n).ends) := by
  induction ns with
  | nil => simp at h
  | cons n ns ih =>
    unfold ended
    simp only [List.findSome?_cons] at h
    cases hr : endEscapes R n with
    | some k' =>
      simp only [hr, Option.some.injEq] at h
      subst h
      simp only [upTo, hr, Option.isSome_some, if_true, List.flatMap_cons, List.flatMap_nil, List.append_nil]
      have : firstRaise (R n).ends = some k' := by
        unfold endEscapes at hr
        split at hr
        · rename_i k hk
          split at hr
          · simp only [Option.some.injEq] at hr; rw [hk, hr]
          · cases hr
        · cases hr
      simp [evsOf, this]
    | none =>
      simp only [hr] at h
      simp only [upTo, hr, Option.isSome_none, Bool.false_eq_true, if_false, List.flatMap_cons]
      exact List.mem_append_right _ (ih h)

/-- C95: a test of a class, in any state, whatever the fixtures, callbacks and functions do:
* if the fixtures of `before` are not available, nothing of the class is called, and the test ends with an exception - that of the
  fixture function, if it was one;
* if `before` raises, nothing else is called, and its exception leaves the test;
* otherwise `after` is called exactly if its own fixtures are available, whether or not the method was called or raised, and
  after it nothing is called but end callbacks; the method is called, if at all, once and between the two: not if its fixtures
  are not available, and certainly if they are and no start callback raises;
* in this case the test ends without an exception only if method and `after` were called and did not raise, and the method did
  not return a generator; an exception it ends with was recorded. -/
theorem C95_before_after (E : Env) (R : Nat → Reg) (fuel : Nat) (c : Cls) (st : St) :
    ∃ d, (runClass E R fuel c st).2.trace = st.trace ++ d ∧
      ((∀ vs, (Fix.setup E fuel c.before.needs st.store).1 ≠ .ok vs) → d = [] ∧ (runClass E R fuel c st).1 ≠ none) ∧
      (∀ k, (Fix.setup E fuel c.before.needs st.store).1 = .error (.user k) → (runClass E R fuel c st).1 = some { kind := k }) ∧
      (∀ vs s, Fix.setup E fuel c.before.needs st.store = (.ok vs, s) →
        (∀ k, c.before.raises = some k → d = [.call .before] ∧ (runClass E R fuel c st).1 = some { kind := k }) ∧
        (c.before.raises = none → ∃ d1 d2, d = .call .before :: (d1 ++ d2) ∧
          (∀ ws s', Fix.setup E fuel c.method.needs s = (ws, s') →
            ((∀ vs, ws ≠ .ok vs) → callsOf d1 = []) ∧
            (callsOf d1 = [] ∨ callsOf d1 = [.test]) ∧
            ((∃ vs, ws = .ok vs) → (∀ n ∈ iterActive E.defs s', ∀ cb ∈ (R n).starts, cb.raises = none) → callsOf d1 = [.test]) ∧
            ((∀ vs, (Fix.setup E fuel c.after.needs s').1 ≠ .ok vs) → callsOf d2 = [] ∧ (runClass E R fuel c st).1 ≠ none) ∧
            ((∃ vs, (Fix.setup E fuel c.after.needs s').1 = .ok vs) → callsOf d2 = [.after] ∧ ∃ d3, d2 = .call .after :: d3)) ∧
          ((runClass E R fuel c st).1 = none → callsOf d1 = [.test] ∧ callsOf d2 = [.after] ∧ c.method.raises = none ∧
            c.method.generator = false ∧ c.after.raises = none) ∧
          (∀ x, (runClass E R fuel c st).1 = some x → .recorded x.kind ∈ d))) := by
  cases hs0 : Fix.setup E fuel c.before.needs st.store with
  | mk r0 s0 =>
  cases r0 with
  | error e =>
    have h : runClass E R fuel c st = (some (exnOf e), { st with store := s0 }) := by
      unfold runClass; rw [callWith_error hs0]
    rw [h]
    exact ⟨[], by simp, fun _ => ⟨rfl, by simp⟩, (fun k h => by cases h; rfl), fun vs s h => by cases h⟩
  | ok us =>
    have hb := callWith_ok (R := R) (p := .before) (f := c.before) (ts := false) hs0
    rw [mid_false] at hb
    cases hr : c.before.raises with
    | some k =>
      rw [hr] at hb
      have h : runClass E R fuel c st = (some { kind := k }, { st with store := s0, trace := st.trace ++ [.call .before] }) := by
        unfold runClass; rw [hb]; rfl
      rw [h]
      refine ⟨[.call .before], rfl, fun hno => absurd rfl (hno us), (by simp), ?_⟩
      intro vs s hs
      refine ⟨?_, by simp⟩
      intro k' hk'
      cases hk'
      exact ⟨rfl, rfl⟩
    | none =>
      rw [hr] at hb
      simp only [Option.map_none] at hb
      rw [runClass_eq hb]
      generalize hst1 : ({ st with store := s0, trace := st.trace ++ [.call .before] } : St) = st1
      have ht1 : st1.trace = st.trace ++ [.call .before] := by rw [← hst1]
      have hs1 : st1.store = s0 := by rw [← hst1]
      -- the method
      cases hsm : Fix.setup E fuel c.method.needs s0 with
      | mk rm sm =>
      have hm : ∃ d1, (handling (noGenerator c.method (callWith E R fuel .test c.method true false st1).1, (callWith E R fuel .test c.method true false st1).2)).2.trace = st1.trace ++ d1 ∧
          (handling (noGenerator c.method (callWith E R fuel .test c.method true false st1).1, (callWith E R fuel .test c.method true false st1).2)).2.store = sm ∧
          ((∀ vs, rm ≠ .ok vs) → callsOf d1 = []) ∧ (callsOf d1 = [] ∨ callsOf d1 = [.test]) ∧
          ((∃ vs, rm = .ok vs) → (∀ n ∈ iterActive E.defs sm, ∀ cb ∈ (R n).starts, cb.raises = none) → callsOf d1 = [.test]) ∧
          ((handling (noGenerator c.method (callWith E R fuel .test c.method true false st1).1, (callWith E R fuel .test c.method true false st1).2)).1 = none →
            callsOf d1 = [.test] ∧ c.method.raises = none ∧ c.method.generator = false) ∧
          (∀ x, (handling (noGenerator c.method (callWith E R fuel .test c.method true false st1).1, (callWith E R fuel .test c.method true false st1).2)).1 = some x →
            .recorded x.kind ∈ d1) := by
        obtain ⟨hst, -, -, -⟩ := handling_store (noGenerator c.method (callWith E R fuel .test c.method true false st1).1, (callWith E R fuel .test c.method true false st1).2)
        obtain ⟨dh, h1, h2, h3, h4⟩ := handling_recorded (noGenerator c.method (callWith E R fuel .test c.method true false st1).1, (callWith E R fuel .test c.method true false st1).2)
        rw [hst, h1]
        rw [← hs1] at hsm
        cases rm with
        | error e =>
          rw [callWith_error hsm] at h3 h4 ⊢
          simp only [noGenerator] at h3 h4 ⊢
          obtain ⟨y, e1, e2, -, e3⟩ := h3 _ rfl
          rw [e1]
          refine ⟨dh, rfl, trivial, fun _ => h2, .inl h2, fun ⟨vs, h⟩ => (by cases h), by simp, ?_⟩
          intro x hx
          cases hx
          rw [e2]
          exact e3 (by cases e <;> rfl)
        | ok ws =>
          obtain ⟨d, b, g1, g2, g3, g4, g5, g6⟩ := mid_calls E R .test c.method sm st1
          rw [callWith_ok hsm] at h3 h4 ⊢
          generalize mid E R .test c.method true sm st1 = m at h3 h4 g1 g3 g4 g5 ⊢
          rcases m with ⟨mx, mst⟩
          simp only at g1 g3 g4 g5 h3 h4 ⊢
          have hcalls : callsOf (d ++ (if b then [.call .test] else []) ++ dh) = if b then [.test] else [] := by
            rw [callsOf_append, callsOf_append, g2, h2]
            cases b <;> rfl
          refine ⟨d ++ (if b then [.call .test] else []) ++ dh, by rw [g1]; simp, g3, fun hno => absurd rfl (hno ws), ?_, ?_, ?_, ?_⟩
          · rw [hcalls]; cases b
            · exact .inl rfl
            · exact .inr rfl
          · intro _ hq; rw [hcalls, g6 hq]; rfl
          · intro hnone
            have hng : noGenerator c.method mx = none := by
              cases hx : noGenerator c.method mx with
              | none => rfl
              | some x => obtain ⟨y, e1, -⟩ := h3 x hx; rw [e1] at hnone; cases hnone
            have hmx : mx = none := by
              cases mx with
              | none => rfl
              | some x => simp [noGenerator] at hng
            subst hmx
            have hb : b = true := by
              cases b with
              | true => rfl
              | false => obtain ⟨x, hx, -⟩ := g4 rfl; cases hx
            rw [hcalls, hb]
            refine ⟨rfl, ?_, ?_⟩
            · have := g5 hb
              cases hcr : c.method.raises with
              | none => rfl
              | some k => rw [hcr] at this; simp at this
            · unfold noGenerator at hng
              cases hg : c.method.generator with
              | false => rfl
              | true => simp [hg] at hng
          · intro x hx
            cases hng : noGenerator c.method mx with
            | none => rw [h4 hng] at hx; cases hx
            | some y =>
              obtain ⟨z, e1, e2, -, e3⟩ := h3 y hng
              rw [e1] at hx
              cases hx
              rw [e2]
              cases hyh : y.handled with
              | false => exact List.mem_append_right _ (e3 hyh)
              | true =>
                refine List.mem_append_left _ (List.mem_append_left _ ?_)
                cases b with
                | false =>
                  obtain ⟨x', hx', -, hr'⟩ := g4 rfl
                  subst hx'
                  simp only [noGenerator, Option.some.injEq] at hng
                  subst hng
                  exact hr'
                | true =>
                  exfalso
                  have := g5 rfl
                  subst this
                  cases hcr : c.method.raises with
                  | none =>
                    rw [hcr] at hng
                    simp only [Option.map_none, noGenerator] at hng
                    split at hng
                    · cases hng; cases hyh
                    · cases hng
                  | some k =>
                    rw [hcr] at hng
                    simp only [Option.map_some, noGenerator, Option.some.injEq] at hng
                    subst hng
                    cases hyh
      obtain ⟨d1, m1, m2, m3, m4, m5, m6, m7⟩ := hm
      simp only
      generalize handling (noGenerator c.method (callWith E R fuel .test c.method true false st1).1, (callWith E R fuel .test c.method true false st1).2) = m at m1 m2 m6 m7 ⊢
      -- after
      have ha : ∃ d2, (handling (callWith E R fuel .after c.after false true m.2)).2.trace = m.2.trace ++ d2 ∧
          ((∀ vs, (Fix.setup E fuel c.after.needs sm).1 ≠ .ok vs) → callsOf d2 = [] ∧ (handling (callWith E R fuel .after c.after false true m.2)).1 ≠ none) ∧
          ((∃ vs, (Fix.setup E fuel c.after.needs sm).1 = .ok vs) → callsOf d2 = [.after] ∧ ∃ d3, d2 = .call .after :: d3) ∧
          ((handling (callWith E R fuel .after c.after false true m.2)).1 = none → callsOf d2 = [.after] ∧ c.after.raises = none) ∧
          (∀ x, (handling (callWith E R fuel .after c.after false true m.2)).1 = some x → .recorded x.kind ∈ d2) := by
        obtain ⟨dh, h1, h2, h3, h4⟩ := handling_recorded (callWith E R fuel .after c.after false true m.2)
        rw [h1]
        cases hsa : Fix.setup E fuel c.after.needs sm with
        | mk ra sa =>
        rw [← m2] at hsa
        cases ra with
        | error e =>
          rw [callWith_error hsa] at h3 h4 ⊢
          obtain ⟨y, e1, e2, -, e3⟩ := h3 _ rfl
          rw [e1]
          refine ⟨dh, rfl, fun _ => ⟨h2, by simp⟩, fun ⟨vs, h⟩ => (by cases h), by simp, ?_⟩
          intro x hx
          cases hx
          rw [e2]
          exact e3 (by cases e <;> rfl)
        | ok ws =>
          rw [callWith_ok_end hsa, mid_false] at h3 h4 ⊢
          simp only at h3 h4 ⊢
          generalize hfs : (ended R (iterActive E.defs sa)).flatMap (fun n => evsOf (.fin n) (R n).ends) = fs at h3 h4 ⊢
          have hfs2 : callsOf fs = [] := by
            rw [← hfs]
            exact callsOf_nil (fun e he => (fins_ends R _ e he).elim (fun h => .inr (.inl h)) (fun h => .inr (.inr h)))
          have hcalls : callsOf ([.call .after] ++ fs ++ dh) = [.after] := by
            rw [callsOf_append, callsOf_append, hfs2, h2]
            rfl
          refine ⟨[.call .after] ++ fs ++ dh, by simp, fun hno => absurd rfl (hno ws), fun _ => ⟨hcalls, fs ++ dh, by simp⟩, ?_, ?_⟩
          · intro hnone
            refine ⟨hcalls, ?_⟩
            cases hes : (iterActive E.defs sa).findSome? (endEscapes R) with
            | some k =>
              rw [hes] at h3 hnone
              obtain ⟨y, e1, -⟩ := h3 _ rfl
              rw [e1] at hnone; cases hnone
            | none =>
              rw [hes] at h3 hnone
              cases hcr : c.after.raises with
              | none => rfl
              | some k =>
                rw [hcr] at h3 hnone
                obtain ⟨y, e1, -⟩ := h3 _ rfl
                rw [e1] at hnone; cases hnone
          · intro x hx
            cases hes : (iterActive E.defs sa).findSome? (endEscapes R) with
            | some k =>
              rw [hes] at h3 hx
              obtain ⟨y, e1, e2, -⟩ := h3 _ rfl
              rw [e1] at hx
              cases hx
              rw [e2]
              exact List.mem_append_left _ (List.mem_append_right _ (hfs ▸ endEscapes_recorded hes))
            | none =>
              rw [hes] at h3 h4 hx
              cases hcr : c.after.raises with
              | none => rw [hcr] at h4 hx; rw [h4 rfl] at hx; cases hx
              | some k =>
                rw [hcr] at h3 hx
                obtain ⟨y, e1, e2, -, e3⟩ := h3 _ rfl
                rw [e1] at hx
                cases hx
                rw [e2]
                exact List.mem_append_right _ (e3 rfl)
      obtain ⟨d2, a1, a2, a3, a4, a5⟩ := ha
      generalize handling (callWith E R fuel .after c.after false true m.2) = a at a1 a2 a4 a5 ⊢
      refine ⟨.call .before :: (d1 ++ d2), by rw [a1, m1, ht1]; simp, fun hno => absurd rfl (hno us), (by simp), ?_⟩
      intro vs s hs
      cases hs
      refine ⟨by simp, fun _ => ⟨d1, d2, rfl, ?_, ?_, ?_⟩⟩
      · intro ws s' hsm'
        rw [hsm] at hsm'
        cases hsm'
        refine ⟨m3, m4, m5, ?_, a3⟩
        intro hno
        refine ⟨(a2 hno).1, ?_⟩
        have := (a2 hno).2
        cases hx : a.1 with
        | none => exact absurd hx this
        | some x => simp
      · intro hnone
        cases hx : a.1 with
        | some x => rw [hx] at hnone; cases hnone
        | none =>
          rw [hx] at hnone
          obtain ⟨k1, k2, k3⟩ := m6 hnone
          obtain ⟨k4, k5⟩ := a4 hx
          exact ⟨k1, k4, k2, k3, k5⟩
      · intro x hx
        cases hax : a.1 with
        | some y =>
          rw [hax] at hx
          cases hx
          exact List.mem_cons_of_mem _ (List.mem_append_right _ (a5 _ hax))
        | none =>
          rw [hax] at hx
          exact List.mem_cons_of_mem _ (List.mem_append_left _ (m7 x hx))

example : runClass (env exDefs (fun _ _ => {}) (fun _ => []) (fun _ => 0)) exReg 5 { before := { needs := [1] }, method := { needs := [2], raises := some .failure }, after := { raises := some .error } } {} =
    (some { kind := .error, handled := true }, { (runClass (env exDefs (fun _ _ => {}) (fun _ => []) (fun _ => 0)) exReg 5 { before := { needs := [1] }, method := { needs := [2] } } {}).2 with
      trace := [.call .before, .start 0 0, .start 0 1, .start 1 10, .start 1 11, .call .test, .recorded .failure, .call .after, .fin 0 5, .fin 1 15, .recorded .error] }) := by decide
example : (runClass (env exDefs (fun _ _ => {}) (fun _ => []) (fun _ => 0)) exReg 5 { before := { needs := [1], raises := some .skip } } {}).2.trace = [.call .before] := by decide

/-- **C95.** A test function, in any state, whatever the fixtures and callbacks do:
* if its fixtures are not available it is not called, and the exception of the fixture leaves the test;
* otherwise it is called at most once, and the test ends without an exception only if it was called, did not raise and did not return a
  generator;
* if no start callback raises, it is called, and if no end callback raises a skip or an interruption the test ends as the function did,
  where returning a generator counts as an error. -/
theorem C95_function (E : Env) (R : Nat → Reg) (fuel : Nat) (f : Fn) (st : St) :
    ∃ d, (runFunction E R fuel f st).2.trace = st.trace ++ d ∧
      (∀ e, (Fix.setup E fuel f.needs st.store).1 = .error e → d = [] ∧ (runFunction E R fuel f st).1.map (·.kind) =
        some (match e with | .cyclic => .error | .assertion => .failure | .user k => k)) ∧
      (∀ vs s, Fix.setup E fuel f.needs st.store = (.ok vs, s) →
        (callsOf d = [] ∨ callsOf d = [.test]) ∧
        ((runFunction E R fuel f st).1 = none → callsOf d = [.test] ∧ f.raises = none ∧ f.generator = false) ∧
        ((∀ n ∈ iterActive E.defs s, ∀ cb ∈ (R n).starts, cb.raises = none) → callsOf d = [.test] ∧
          ((∀ n ∈ iterActive E.defs s, ∀ cb ∈ (R n).ends, ∀ k, cb.raises = some k → k.escapes = false) →
            (runFunction E R fuel f st).1.map (·.kind) = f.raises.or (if f.generator then some .error else none)))) := by
  cases hs : Fix.setup E fuel f.needs st.store with
  | mk r s =>
  cases r with
  | error e =>
    have h : runFunction E R fuel f st = (some (exnOf e), { st with store := s }) := by
      unfold runFunction; rw [callWith_error hs]; rfl
    rw [h]
    refine ⟨[], by simp, ?_, fun vs s h => by cases h⟩
    intro e' he
    cases he
    exact ⟨rfl, by cases e <;> rfl⟩
  | ok vs =>
    have h := callWith_ok_end (R := R) (p := .test) (f := f) (ts := true) hs
    obtain ⟨d, b, h1, h2, -, h3, h4, h5⟩ := mid_calls E R .test f s st
    have hends : callsOf ((ended R (iterActive E.defs s)).flatMap (fun n => evsOf (.fin n) (R n).ends)) = [] := by
      refine callsOf_nil (fun e he => ?_)
      obtain ⟨n, -, he⟩ := List.mem_flatMap.1 he
      unfold evsOf at he
      rcases List.mem_append.1 he with he | he
      · obtain ⟨t, -, rfl⟩ := List.mem_map.1 he; exact .inr (.inl ⟨n, t, rfl⟩)
      · obtain ⟨t, -, rfl⟩ := List.mem_map.1 he; exact .inr (.inr ⟨t, rfl⟩)
    refine ⟨d ++ (if b then [.call .test] else []) ++ (ended R (iterActive E.defs s)).flatMap (fun n => evsOf (.fin n) (R n).ends), ?_,
      (fun e he => by cases he), ?_⟩
    · unfold runFunction
      rw [h]
      simp only
      rw [h1]
      simp
    · intro vs' s' hs'
      cases hs'
      have hc : callsOf (d ++ (if b then [.call .test] else []) ++ (ended R (iterActive E.defs s)).flatMap (fun n => evsOf (.fin n) (R n).ends)) =
          if b then [.test] else [] := by
        unfold callsOf at h2 hends ⊢
        rw [List.filterMap_append, List.filterMap_append, h2, hends]
        cases b <;> rfl
      rw [hc]
      refine ⟨by cases b <;> simp, ?_, ?_⟩
      · intro hnone
        unfold runFunction at hnone
        rw [h] at hnone
        cases he : (iterActive E.defs s).findSome? (endEscapes R) with
        | some k => rw [he] at hnone; cases hnone
        | none =>
          rw [he] at hnone
          cases b with
          | false => obtain ⟨x, hx, -⟩ := h3 rfl; simp only [hx, noGenerator] at hnone; cases hnone
          | true =>
            simp only [h4 rfl] at hnone
            cases hr : f.raises with
            | some k => rw [hr] at hnone; cases hnone
            | none =>
              rw [hr] at hnone
              simp only [Option.map_none, noGenerator] at hnone
              refine ⟨rfl, rfl, ?_⟩
              cases hg : f.generator with
              | false => rfl
              | true => simp [hg] at hnone
      · intro hq
        have hb := h5 hq
        subst hb
        refine ⟨rfl, fun hq2 => ?_⟩
        have he : (iterActive E.defs s).findSome? (endEscapes R) = none := by
          rw [List.findSome?_eq_none_iff]
          intro n hn
          unfold endEscapes
          split
          · rename_i k hk
            obtain ⟨cb, h6, h7⟩ := List.exists_of_findSome?_eq_some hk
            rw [hq2 n hn cb h6 k h7]; rfl
          · rfl
        unfold runFunction
        rw [h, he]
        simp only [h4 rfl]
        cases f.raises with
        | some k => rfl
        | none =>
          simp only [Option.map_none, noGenerator, Option.or]
          split <;> rfl

/-- A function that returns a generator; a fixture that skips. -/
example : (runFunction (env exDefs (fun _ _ => {}) (fun _ => []) (fun _ => 0)) exReg 5 { needs := [1], generator := true } {}).1 = some { kind := .error } ∧
    (runFunction (env exDefs (fun _ _ => {}) (fun _ => []) (fun _ => 0)) exReg 5 { needs := [1] } {}).1 = none ∧
    (runFunction (env exDefs (fun _ _ => { raises := some .skip }) (fun _ => []) (fun _ => 0)) exReg 5 { needs := [1] } {}).1 = some { kind := .skip } := by decide

end Slash.TestRun
