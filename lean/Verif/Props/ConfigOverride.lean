import Verif.Model.ConfigOverride
/-!
# Properties of configuration overrides (C45)
-/
namespace Slash.Cfg

variable {V : Type}

/-- The value recorded first for a path. -/
def first (l : List (Str × V)) (p : Str) : Option V := (l.find? (fun x => x.1 == p)).map (·.2)

theorem restore_eq (l : List (Str × V)) (c : Config V) (p : Str) : restore l c p = (first l p).or (c p) := by
  induction l with
  | nil => rfl
  | cons x l ih =>
    show assign (restore l c) x.1 x.2 p = _
    unfold assign first
    by_cases h : p = x.1
    · subst h; simp
    · have : (x.1 == p) = false := by simp [Ne.symm h]
      rw [if_neg h, List.find?_cons, this, ih]; rfl

theorem first_append (l m : List (Str × V)) (p : Str) : first (l ++ m) p = (first l p).or (first m p) := by
  unfold first
  rw [List.find?_append]
  cases l.find? (fun x => x.1 == p) <;> rfl

/-- What is recorded are the original values, and other values have not changed. -/
def Inv (c0 : Config V) (st : St V) : Prop :=
  ∀ p, match first st.toRestore p with
    | some v => c0 p = some v
    | none => st.cfg p = c0 p

theorem Inv.restore {c0 : Config V} {st : St V} (h : Inv c0 st) (c : Config V) (p : Str) :
    restore st.toRestore c p = c0 p ∨ (restore st.toRestore c p = c p ∧ st.cfg p = c0 p) := by
  rw [restore_eq]
  have := h p
  cases hf : first st.toRestore p with
  | some v => rw [hf] at this; exact .inl this.symm
  | none => rw [hf] at this; exact .inr ⟨rfl, this⟩

theorem Inv.record {c0 : Config V} {st : St V} (h : Inv c0 st) (p : Str) (old : V) (ho : st.cfg p = some old) (r : Conv V) :
    Inv c0 (recordAssign p old r st).2 := by
  have key : ∀ c : Config V, (∀ q, q ≠ p → c q = st.cfg q) → Inv c0 ⟨st.toRestore ++ [(p, old)], c⟩ := by
    intro c hc q
    have hq := h q
    simp only [first_append]
    cases hf : first st.toRestore q with
    | some v => rw [hf] at hq; exact hq
    | none =>
      rw [hf] at hq
      by_cases e : q = p
      · subst e
        simp only [first, List.find?, beq_self_eq_true, Option.map_some, Option.none_or]
        rw [← hq, ho]
      · have : (p == q) = false := by simp [Ne.symm e]
        simp only [first, List.find?, this, Option.map_none, Option.none_or]
        rw [hc q e]; exact hq
  unfold recordAssign
  cases r with
  | ok v => exact key _ (fun q hq => by simp [assign, hq])
  | valueError => exact key _ (fun _ _ => rfl)
  | otherError => exact key _ (fun _ _ => rfl)

theorem Inv.loop {A : Type} (f : A → St V → Option Err × St V) (c0 : Config V)
    (hf : ∀ a st, Inv c0 st → Inv c0 (f a st).2) (as : List A) : ∀ st, Inv c0 st → Inv c0 (Cfg.loop f as st).2 := by
  induction as with
  | nil => intro st h; exact h
  | cons a as ih =>
    intro st h
    have h1 := hf a st h
    rw [Cfg.loop]
    generalize f a st = r at *
    obtain ⟨e, st'⟩ := r
    cases e with
    | some e => exact h1
    | none => exact ih st' h1

theorem Inv.cmd [DecidableEq V] (env : Env V) (c0 : Config V) (cmd : Cmd V) (st : St V) (h : Inv c0 st) :
    Inv c0 (applyCmd env cmd st).2 := by
  unfold applyCmd
  cases hp : st.cfg cmd.path with
  | none => exact h
  | some old =>
    simp only
    cases updateValue cmd old with
    | none => exact h
    | some new =>
      simp only
      split
      · exact h.record _ _ hp _
      · exact h

theorem Inv.override (env : Env V) (c0 : Config V) (o : Str) (st : St V) (h : Inv c0 st) :
    Inv c0 (applyOverride env o st).2 := by
  unfold applyOverride
  split
  · exact h
  · simp only
    cases hp : st.cfg (o.takeWhile (· ≠ '=')) with
    | none => exact h
    | some old => exact h.record _ _ hp _

theorem Inv.applyAll [DecidableEq V] (env : Env V) (cmds : List (Cmd V)) (os : List Str) (c0 : Config V) :
    Inv c0 (Cfg.applyAll env cmds os c0).2 := by
  have h1 : Inv c0 (Cfg.loop (applyCmd env) cmds ⟨[], c0⟩).2 :=
    Inv.loop _ c0 (fun a st h => Inv.cmd env c0 a st h) cmds _ (fun p => rfl)
  unfold Cfg.applyAll
  generalize Cfg.loop (applyCmd env) cmds ⟨[], c0⟩ = r at *
  obtain ⟨e, st⟩ := r
  cases e with
  | some e => exact h1
  | none => exact Inv.loop _ c0 (fun a st h => Inv.override env c0 a st h) os _ h1

/-- C45: if applying the options and overrides fails at any point, the block is not run, and the configuration is what it
was. -/
theorem C45_restored_when_applying_fails [DecidableEq V] (env : Env V) (cmds : List (Cmd V)) (os : List Str)
    (body : Config V → Option Err × Config V) (cfg : Config V) (h : (context env cmds os body cfg).entered = none) :
    (context env cmds os body cfg).cfg = cfg ∧ (context env cmds os body cfg).err ≠ none := by
  have hi := Inv.applyAll env cmds os cfg
  unfold context at *
  generalize applyAll env cmds os cfg = r at *
  obtain ⟨e, st⟩ := r
  cases e with
  | none => cases h
  | some e =>
    refine ⟨funext fun p => ?_, by simp⟩
    rcases hi.restore st.cfg p with h | ⟨h1, h2⟩
    · exact h
    · exact h1.trans h2

/-- C45: for every block, whether it raises or not: after the context each value is what it was before, unless the path
was not overridden (it had the old value when the block was entered) and the block itself changed it. -/
theorem C45_restored [DecidableEq V] (env : Env V) (cmds : List (Cmd V)) (os : List Str)
    (body : Config V → Option Err × Config V) (cfg inside : Config V)
    (h : (context env cmds os body cfg).entered = some inside) (p : Str) :
    (context env cmds os body cfg).cfg p = cfg p ∨
      (inside p = cfg p ∧ (context env cmds os body cfg).cfg p = (body inside).2 p) := by
  have hi := Inv.applyAll env cmds os cfg
  unfold context at *
  generalize applyAll env cmds os cfg = r at *
  obtain ⟨e, st⟩ := r
  cases e with
  | some e => cases h
  | none =>
    have h : st.cfg = inside := Option.some.inj h
    subst h
    rcases hi.restore (body st.cfg).2 p with h | ⟨h1, h2⟩
    · exact .inl h
    · exact .inr ⟨h2, h1⟩

/-- C45: if the block leaves the configuration as it found it, then after the context the configuration is what it was
before, whether the block raises or not. -/
theorem C45_restored_exactly [DecidableEq V] (env : Env V) (cmds : List (Cmd V)) (os : List Str)
    (body : Config V → Option Err × Config V) (hb : ∀ c, (body c).2 = c) (cfg : Config V) :
    (context env cmds os body cfg).cfg = cfg := by
  cases h : (context env cmds os body cfg).entered with
  | none => exact (C45_restored_when_applying_fails env cmds os body cfg h).1
  | some inside =>
    funext p
    rcases C45_restored env cmds os body cfg inside h p with h | ⟨h1, h2⟩
    · exact h
    · rw [h2, hb, h1]

/-- The exception of the block is passed on. -/
theorem C45_exception_passed [DecidableEq V] (env : Env V) (cmds : List (Cmd V)) (os : List Str)
    (body : Config V → Option Err × Config V) (cfg inside : Config V)
    (h : (context env cmds os body cfg).entered = some inside) : (context env cmds os body cfg).err = (body inside).1 := by
  unfold context at *
  generalize applyAll env cmds os cfg = r at *
  obtain ⟨e, st⟩ := r
  cases e with
  | some e => cases h
  | none => have h : st.cfg = inside := Option.some.inj h; subst h; rfl

/-- Examples: values are numbers; texts have to be digits, of at most two characters. -/
def exEnv : Env Nat where
  deduce := fun _ v => if v < 100 then .ok v else .valueError
  deduceText := fun _ t => match t with
    | [c] => if c.isDigit then .ok (c.toNat - 48) else .valueError
    | _ => .otherError

/-- Examples: `a` is 1, `b` is 2. -/
def exCfg : Config Nat := fun p => if p = ['a'] then some 1 else if p = ['b'] then some 2 else none

example :
    let r := context exEnv [⟨['a'], some 5, none, [fun x => some (x + 1)]⟩] ["a=7".toList, "b=3".toList, "a=9".toList]
      (fun c => (some .other, assign c ['a'] 55)) exCfg
    (r.entered.map (fun c => (c ['a'], c ['b'])), r.err, r.cfg ['a'], r.cfg ['b']) =
      (some (some 9, some 3), some .other, some 1, some 2) := by decide +kernel

example :
    let r := context exEnv [⟨['a'], some 5, none, []⟩] ["a=7".toList, "b=x".toList] (fun c => (none, c)) exCfg
    (r.entered.isSome, r.err, r.cfg ['a'], r.cfg ['b']) = (false, some .systemExit, some 1, some 2) := by decide +kernel

/-! ### What is in force inside of the context -/

theorem takeWhile_append_eq (p t : Str) (hp : '=' ∉ p) : (p ++ '=' :: t).takeWhile (· ≠ '=') = p := by
  induction p with
  | nil => simp
  | cons c p ih =>
    have hp : '=' ≠ c ∧ '=' ∉ p := by simpa using hp
    rw [List.cons_append, List.takeWhile]
    simpa [Ne.symm hp.1] using ih hp.2

theorem dropWhile_append_eq (p t : Str) (hp : '=' ∉ p) : ((p ++ '=' :: t).dropWhile (· ≠ '=')).drop 1 = t := by
  induction p with
  | nil => simp
  | cons c p ih =>
    have hp : '=' ≠ c ∧ '=' ∉ p := by simpa using hp
    rw [List.cons_append, List.dropWhile]
    simpa [Ne.symm hp.1] using ih hp.2

theorem split_eq (o : Str) (hm : '=' ∈ o) : o = o.takeWhile (· ≠ '=') ++ '=' :: (o.dropWhile (· ≠ '=')).drop 1 := by
  induction o with
  | nil => simp at hm
  | cons c o iho =>
    by_cases hc : c = '='
    · subst hc; simp
    · have : '=' ∈ o := by simpa [Ne.symm hc] using hm
      simp only [List.takeWhile, List.dropWhile, hc, ne_eq, not_false_eq_true, decide_true]
      rw [List.cons_append, ← iho this]

theorem applyOverride_ok (env : Env V) (p t : Str) (hp : '=' ∉ p) (st st' : St V)
    (h : applyOverride env (p ++ '=' :: t) st = (none, st')) :
    ∃ old v, st.cfg p = some old ∧ env.deduceText old t = .ok v ∧ st'.cfg = assign st.cfg p v := by
  have htake := takeWhile_append_eq p t hp
  have hdrop := dropWhile_append_eq p t hp
  rw [applyOverride, if_neg (by simp), htake, hdrop] at h
  simp only at h
  cases ho : st.cfg p with
  | none => rw [ho] at h; cases h
  | some old =>
    rw [ho] at h
    simp only [recordAssign] at h
    cases hd : env.deduceText old t with
    | ok v => rw [hd] at h; cases h; exact ⟨old, v, rfl, hd, rfl⟩
    | valueError => rw [hd] at h; cases h
    | otherError => rw [hd] at h; cases h

theorem loop_append {A : Type} (f : A → St V → Option Err × St V) (as bs : List A) (st st' : St V)
    (h : loop f (as ++ bs) st = (none, st')) : ∃ st1, loop f as st = (none, st1) ∧ loop f bs st1 = (none, st') := by
  induction as generalizing st with
  | nil => exact ⟨st, rfl, h⟩
  | cons a as ih =>
    rw [List.cons_append, loop] at h
    rw [loop]
    generalize f a st = r at *
    obtain ⟨e, s⟩ := r
    cases e with
    | some e => cases h
    | none => exact ih s h

theorem overrides_other (env : Env V) (p : Str) (os : List Str) (ho : ∀ t, ∀ o ∈ os, o ≠ p ++ '=' :: t) :
    ∀ st st', loop (applyOverride env) os st = (none, st') → st'.cfg p = st.cfg p := by
  induction os with
  | nil => intro st st' h; cases h; rfl
  | cons o os ih =>
    intro st st' h
    rw [loop] at h
    cases hr : applyOverride env o st with
    | mk e s =>
      rw [hr] at h
      cases e with
      | some e => cases h
      | none =>
        rw [ih (fun t x hx => ho t x (List.mem_cons_of_mem _ hx)) s st' h]
        unfold applyOverride at hr
        split at hr
        · cases hr
        · next hm =>
          have hm : '=' ∈ o := by simpa using hm
          have hsplit := split_eq o hm
          have hne : p ≠ o.takeWhile (· ≠ '=') := fun e => ho _ o (by simp) (e ▸ hsplit)
          simp only at hr
          cases hc : st.cfg (o.takeWhile (· ≠ '=')) with
          | none => rw [hc] at hr; cases hr
          | some old =>
            rw [hc] at hr
            simp only [recordAssign] at hr
            split at hr
            · cases hr; exact if_neg hne
            · cases hr
            · cases hr

/-- C45: inside of the context the last override given for a path is in force: the path has the value which its text
stands for, converted to the type of the value it replaces. -/
theorem C45_last_override_in_force [DecidableEq V] (env : Env V) (cmds : List (Cmd V)) (os1 os2 : List Str) (p t : Str)
    (hp : '=' ∉ p) (hlast : ∀ u, ∀ o ∈ os2, o ≠ p ++ '=' :: u) (body : Config V → Option Err × Config V)
    (cfg inside : Config V)
    (h : (context env cmds (os1 ++ (p ++ '=' :: t) :: os2) body cfg).entered = some inside) :
    ∃ old v, env.deduceText old t = .ok v ∧ inside p = some v := by
  unfold context at h
  generalize hr : applyAll env cmds (os1 ++ (p ++ '=' :: t) :: os2) cfg = r at *
  obtain ⟨e, st⟩ := r
  cases e with
  | some e => cases h
  | none =>
    have h : st.cfg = inside := Option.some.inj h
    subst h
    unfold applyAll at hr
    generalize loop (applyCmd env) cmds ⟨[], cfg⟩ = r1 at hr
    obtain ⟨e, s⟩ := r1
    cases e with
    | some e => cases hr
    | none =>
      obtain ⟨s1, -, h2⟩ := loop_append _ _ _ _ _ hr
      rw [loop] at h2
      cases ha : applyOverride env (p ++ '=' :: t) s1 with
      | mk e s2 =>
        rw [ha] at h2
        cases e with
        | some e => cases h2
        | none =>
          obtain ⟨old, v, h3, h4, h5⟩ := applyOverride_ok env p t hp s1 s2 ha
          refine ⟨old, v, h4, ?_⟩
          rw [overrides_other env p os2 hlast s2 st h2, h5]
          simp [assign]

example : (context exEnv [] ["a=7".toList, "a=9".toList] (fun c => (none, c)) exCfg).entered.map (· ['a']) = some (some 9) := by
  decide +kernel

theorem cmds_other [DecidableEq V] (env : Env V) (p : Str) : ∀ (cmds : List (Cmd V)), (∀ c ∈ cmds, c.path ≠ p) → ∀ st : St V,
    (loop (applyCmd env) cmds st).2.cfg p = st.cfg p := by
  intro cmds
  induction cmds with
  | nil => intro _ st; rfl
  | cons c cmds ih =>
    intro hc st
    have h1 : (applyCmd env c st).2.cfg p = st.cfg p := by
      have hne : p ≠ c.path := Ne.symm (hc c (by simp))
      unfold applyCmd
      cases st.cfg c.path with
      | none => rfl
      | some old =>
        simp only
        cases updateValue c old with
        | none => rfl
        | some new =>
          simp only
          split
          · unfold recordAssign
            cases env.deduce old new with
            | ok v => simp [assign, hne]
            | valueError => rfl
            | otherError => rfl
          · rfl
    have ih := ih (fun x hx => hc x (List.mem_cons_of_mem _ hx))
    rw [loop]
    generalize applyCmd env c st = r at *
    obtain ⟨e, s⟩ := r
    cases e with
    | some e => exact h1
    | none => exact (ih s).trans h1

/-- C45: a value which no override and no option is about is not changed inside of the context. -/
theorem C45_others_untouched [DecidableEq V] (env : Env V) (cmds : List (Cmd V)) (os : List Str) (p : Str)
    (hc : ∀ c ∈ cmds, c.path ≠ p) (ho : ∀ t, ∀ o ∈ os, o ≠ p ++ '=' :: t) (body : Config V → Option Err × Config V)
    (cfg inside : Config V) (h : (context env cmds os body cfg).entered = some inside) : inside p = cfg p := by
  unfold context at h
  generalize hr : applyAll env cmds os cfg = r at *
  obtain ⟨e, st⟩ := r
  cases e with
  | some e => cases h
  | none =>
    have h : st.cfg = inside := Option.some.inj h
    subst h
    have k := cmds_other env p cmds hc ⟨[], cfg⟩
    unfold applyAll at hr
    generalize loop (applyCmd env) cmds ⟨[], cfg⟩ = r1 at *
    obtain ⟨e, s⟩ := r1
    cases e with
    | some e => cases hr
    | none => exact (overrides_other env p os ho s st hr).trans k

/-- C45: an option of the command line for a path which no override is about gives the value in force inside of the
context: its argument replaces the old value, or is appended to it; then the flags given are applied in turn, each to what
the one before left; then the value is converted to the type of the old one. -/
theorem C45_option_in_force [DecidableEq V] (env : Env V) (c1 c2 : List (Cmd V)) (cmd : Cmd V) (os : List Str)
    (h1 : ∀ c ∈ c1, c.path ≠ cmd.path) (h2 : ∀ c ∈ c2, c.path ≠ cmd.path)
    (ho : ∀ t, ∀ o ∈ os, o ≠ cmd.path ++ '=' :: t) (body : Config V → Option Err × Config V)
    (cfg inside : Config V) (h : (context env (c1 ++ cmd :: c2) os body cfg).entered = some inside) :
    ∃ old start new, cfg cmd.path = some old ∧
      (cmd.arg = none → start = old) ∧
      (∀ a, cmd.arg = some a → cmd.append = none → start = a) ∧
      (∀ a app, cmd.arg = some a → cmd.append = some app → app old a = some start) ∧
      cmd.callbacks.foldlM (fun v f => f v) start = some new ∧
      (new = old ∧ inside cmd.path = some old ∨
        ∃ v, new ≠ old ∧ env.deduce old new = .ok v ∧ inside cmd.path = some v) := by
  have hcb : ∀ (fs : List (V → Option V)) (v : V), fs.foldlM (fun v f => f v) v = runCallbacks fs v := by
    intro fs
    induction fs with
    | nil => intro v; rfl
    | cons f fs ih =>
      intro v
      rw [List.foldlM_cons, runCallbacks]
      cases f v with
      | none => rfl
      | some w => exact ih w
  unfold context at h
  generalize hr : applyAll env (c1 ++ cmd :: c2) os cfg = r at *
  obtain ⟨e, st⟩ := r
  cases e with
  | some e => cases h
  | none =>
    have h : st.cfg = inside := Option.some.inj h
    subst h
    unfold applyAll at hr
    cases hl : loop (applyCmd env) (c1 ++ cmd :: c2) ⟨[], cfg⟩ with
    | mk e s =>
    rw [hl] at hr
    cases e with
    | some e => cases hr
    | none =>
      have e1 := overrides_other env cmd.path os ho s st hr
      obtain ⟨s1, l1, l2⟩ := loop_append _ _ _ _ _ hl
      have e2 := cmds_other env cmd.path c1 h1 ⟨[], cfg⟩
      rw [l1] at e2
      rw [loop] at l2
      cases ha : applyCmd env cmd s1 with
      | mk e s2 =>
      rw [ha] at l2
      cases e with
      | some e => cases l2
      | none =>
        have e3 := cmds_other env cmd.path c2 h2 s2
        simp only at l2
        rw [l2] at e3
        simp only at e2 e3
        rw [e1, e3]
        unfold applyCmd at ha
        rw [e2] at ha
        cases hc : cfg cmd.path with
        | none => rw [hc] at ha; cases ha
        | some old =>
          rw [hc] at ha
          simp only at ha
          cases hu : updateValue cmd old with
          | none => rw [hu] at ha; cases ha
          | some new =>
            rw [hu] at ha
            simp only at ha
            have hlast : new = old ∧ s2.cfg cmd.path = some old ∨
                ∃ v, new ≠ old ∧ env.deduce old new = .ok v ∧ s2.cfg cmd.path = some v := by
              split at ha
              · rename_i hne
                unfold recordAssign at ha
                cases hd : env.deduce old new with
                | ok v => rw [hd] at ha; cases ha; exact .inr ⟨v, hne, rfl, by simp [assign]⟩
                | valueError => rw [hd] at ha; cases ha
                | otherError => rw [hd] at ha; cases ha
              · rename_i hne
                cases ha
                exact .inl ⟨by simpa using hne, e2.trans hc⟩
            unfold updateValue at hu
            cases harg : cmd.arg with
            | none =>
              rw [harg] at hu
              exact ⟨old, old, new, rfl, fun _ => rfl, nofun, nofun, (hcb _ _).trans hu, hlast⟩
            | some a =>
              rw [harg] at hu
              cases happ : cmd.append with
              | none =>
                rw [happ] at hu
                exact ⟨old, a, new, rfl, nofun, fun b hb _ => Option.some.inj hb, nofun, (hcb _ _).trans hu, hlast⟩
              | some f =>
                rw [happ] at hu
                simp only [Option.bind_eq_some_iff] at hu
                obtain ⟨w, hw, hu⟩ := hu
                refine ⟨old, w, new, rfl, nofun, nofun, ?_, (hcb _ _).trans hu, hlast⟩
                intro b g hb hg
                cases hb; cases hg
                exact hw

/-- Appending is modelled by the digits of numbers; then the value is doubled and increased. -/
example : (context exEnv [⟨['a'], some 2, some (fun old a => some (10 * old + a)), [fun x => some (2 * x), fun x => some (x + 1)]⟩]
    ["b=3".toList] (fun c => (none, c)) exCfg).entered.map (· ['a']) = some (some 25) := by decide +kernel

end Slash.Cfg
