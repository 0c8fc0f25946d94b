import Verif.Lemmas.PluginConfig
/-!
# C141: the configuration of plugins

`merge` is what confetti makes of a section that is there already when defaults are added to it; all theorems hold for any.
-/
namespace Slash.PConf
open Slash.Plug

/-- A plugin without spaces in its name (for examples). -/
def exObjs : Objs := fun o =>
  if o = 0 then { name := "my plugin".toList } else if o = 1 then { name := "my_plugin".toList }
  else if o = 2 then { name := "other".toList } else if o = 3 then { name := "bad/name".toList }
  else if o = 4 then { name := "my plugin".toList, type := 1 }
  else { name := "broken".toList, methods := [{ name := "no_such_hook".toList }] }

/-- Defaults of the plugins of the examples. -/
def exConf : Conf where
  old := fun o => if o = 2 then some [("x".toList, 7)] else none
  new := fun o => if o = 4 then none else some [("x".toList, o), ("y".toList, 1)]

/-- No hooks there are. -/
def exWorld : World where
  known := fun _ _ => false
  slash := []

/-- Adding defaults to a section, for the examples. -/
def exMerge (a b : Sec) : Sec := a ++ b

/-- Whether an operation installs or uninstalls a plugin whose section is called `k`. -/
def Touches (ps : Objs) (k : Str) (s : CSt) : COp → Prop
  | .plug (.install o _ _ _ _ _) => k = cfgName (ps o).name
  | .plug (.uninstall r _) => ∃ o, find ps s.st r = some o ∧ k = cfgName (ps o).name
  | _ => False

/-- C141: installing, uninstalling, activating or deactivating a plugin leaves the sections of all other names as they are, however it ends. -/
theorem C141_others_untouched (merge : Sec → Sec → Sec) (w : World) (ps : Objs) (c : Conf) (op : Op) (s : CSt) (k : Str)
    (h : ¬ Touches ps k s (.plug op)) : dictGet k ((COp.plug op).run merge w ps c s).cfg = dictGet k s.cfg := by
  cases op with
  | install o a l i x d =>
    have h' : ¬ k = cfgName (ps o).name := h
    show dictGet k (install merge w ps c o a l i x d s).2.cfg = _
    rcases install_cfg merge w ps c o a l i x d s with ⟨-, e, -⟩ | ⟨e, -, -⟩ | ⟨e, -, -⟩ <;> rw [e]
    · rw [get_configure, if_neg h']
    · rw [dictGet_pop, if_neg h', get_configure, if_neg h']
  | uninstall r x =>
    show dictGet k (uninstall ps r x s).2.cfg = _
    rcases uninstall_cfg ps r x s with ⟨-, -, e, -⟩ | ⟨o, hf, -, e, -⟩ <;> rw [e]
    rw [dictGet_pop, if_neg (fun e => h ⟨o, hf, e⟩)]
  | activate r x => rfl
  | deactivate r x => rfl
  | activateLater r => rfl
  | deactivateLater r => rfl
  | activatePending a d oA oD => rfl

example : dictGet "other".toList ((COp.plug (.install 0 false false false false false)).run exMerge exWorld exObjs exConf
    { cfg := [("other".toList, [("x".toList, 3)])] }).cfg = some [("x".toList, 3)] := by decide +kernel

/-- C141: an object that is not a plugin, or one whose name has a character other than letters, digits, spaces, `_` and `-`, is refused, and leaves
no trace in the configuration or in the manager. -/
theorem C141_refused (merge : Sec → Sec → Sec) (w : World) (ps : Objs) (c : Conf) (o : Nat) (a l i x d : Bool) (s : CSt)
    (h : (ps o).isPlugin = false ∨ ∃ ch ∈ (ps o).name, ch.isAlphanum = false ∧ ch ≠ '_' ∧ ch ≠ ' ' ∧ ch ≠ '-') :
    (install merge w ps c o a l i x d s).1 ≠ .ok ∧ (install merge w ps c o a l i x d s).2 = s := by
  unfold install
  cases hp : (ps o).isPlugin with
  | false => simp
  | true =>
    rcases h with h | ⟨ch, hm, h1, h2, h3, h4⟩
    · rw [hp] at h; cases h
    · have : (ps o).name.all legalChar = false := by
        rw [List.all_eq_false]
        refine ⟨ch, hm, ?_⟩
        simp only [legalChar, Bool.or_eq_true, Bool.and_eq_true, decide_eq_true_eq, beq_iff_eq, h2, h3, h4, or_false]
        simp only [Char.isAlphanum, Char.isAlpha, Char.isUpper, Char.isLower, Char.isDigit, Bool.or_eq_false_iff, Bool.and_eq_false_iff,
          decide_eq_false_iff_not] at h1
        simp only [ge_iff_le, UInt32.le_iff_toNat_le] at h1
        simp only [Char.toNat]
        have e1 : ('A'.val.toNat) = 65 := rfl
        have e2 : ('Z'.val.toNat) = 90 := rfl
        have e3 : ('a'.val.toNat) = 97 := rfl
        have e4 : ('z'.val.toNat) = 122 := rfl
        have e5 : ('0'.val.toNat) = 48 := rfl
        have e6 : ('9'.val.toNat) = 57 := rfl
        simp only [e1, e2, e3, e4, e5, e6] at h1 ⊢
        omega
      rw [this]
      simp

example : (install exMerge exWorld exObjs exConf 3 true true false false false {}) = (.illegalName, {}) := by decide +kernel

/-- C141: a plugin whose name has only letters, digits, spaces, `_` and `-` is installed - unless it is incompatible with what it needs. -/
theorem C141_accepted (merge : Sec → Sec → Sec) (w : World) (ps : Objs) (c : Conf) (o : Nat) (a l i x d : Bool) (s : CSt)
    (h1 : (ps o).isPlugin = true) (h2 : ∀ ch ∈ (ps o).name, ch.isAlphanum = true ∨ ch = '_' ∨ ch = ' ' ∨ ch = '-') :
    (install merge w ps c o a l i x d s).1 = .incompatible ∨ dictGet (ps o).name (install merge w ps c o a l i x d s).2.st.installed = some (o, i) := by
  have hl : (ps o).name.all legalChar = true := by
    rw [List.all_eq_true]
    intro ch hm
    simp only [legalChar, Bool.or_eq_true, Bool.and_eq_true, decide_eq_true_eq, beq_iff_eq]
    rcases h2 ch hm with h | h | h | h
    · simp only [Char.isAlphanum, Char.isAlpha, Char.isUpper, Char.isLower, Char.isDigit, Bool.or_eq_true, Bool.and_eq_true, decide_eq_true_eq] at h
      simp only [ge_iff_le, UInt32.le_iff_toNat_le] at h
      simp only [Char.toNat]
      have e1 : ('A'.val.toNat) = 65 := rfl
      have e2 : ('Z'.val.toNat) = 90 := rfl
      have e3 : ('a'.val.toNat) = 97 := rfl
      have e4 : ('z'.val.toNat) = 122 := rfl
      have e5 : ('0'.val.toNat) = 48 := rfl
      have e6 : ('9'.val.toNat) = 57 := rfl
      simp only [e1, e2, e3, e4, e5, e6] at h ⊢
      omega
    · exact .inl (.inl (.inr h))
    · exact .inl (.inr h)
    · exact .inr h
  rcases install_cfg merge w ps c o a l i x d s with ⟨h, -⟩ | ⟨-, h, -⟩ | ⟨-, -, h⟩
  · rw [h1, hl] at h; simp at h
  · right; rw [h]; rw [dictGet_set, if_pos rfl]
  · exact .inl h

example : dictGet (exObjs 0).name (install exMerge exWorld exObjs exConf 0 false false true false false {}).2.st.installed = some (0, true) := by decide +kernel

/-- C141: after a plugin was installed where no section of its name was, its section has its defaults (those of the deprecated `get_config`, if it
has any), and this is what `current_config` of the plugin gives; a plugin without defaults gets no section. -/
theorem C141_installed (merge : Sec → Sec → Sec) (w : World) (ps : Objs) (c : Conf) (o : Nat) (a l i x d : Bool) (s : CSt)
    (h : (install merge w ps c o a l i x d s).1 = .ok) (hs : currentConfig ps o s = none) :
    currentConfig ps o (install merge w ps c o a l i x d s).2 = (c.old o).or (c.new o) := by
  rcases install_cfg merge w ps c o a l i x d s with ⟨-, -, e⟩ | ⟨e, -, -⟩ | ⟨-, -, e⟩
  · rcases e with e | e <;> rw [e] at h <;> cases h
  · unfold currentConfig at hs ⊢
    rw [e, get_configure, if_pos rfl, hs]
    unfold Conf.of
    cases c.old o <;> cases c.new o <;> rfl
  · rw [e] at h; cases h

example : currentConfig exObjs 0 (install exMerge exWorld exObjs exConf 0 true false false false false {}).2 =
    some [("x".toList, 0), ("y".toList, 1)] := by decide +kernel
example : currentConfig exObjs 2 (install exMerge exWorld exObjs exConf 2 false false false false false {}).2 =
    some [("x".toList, 7)] := by decide +kernel

/-- C141: the name of the section is that of the plugin with underscores for spaces. -/
theorem C141_name (n : Str) : (cfgName n).length = n.length ∧
    ∀ (j : Nat) (ch : Char), n[j]? = some ch → (cfgName n)[j]? = some (if ch = ' ' then '_' else ch) := by
  unfold cfgName
  refine ⟨List.length_map _, ?_⟩
  intro j ch h
  rw [List.getElem?_map, h]
  rfl

example : cfgName "my new-plugin".toList = "my_new-plugin".toList := by decide +kernel

/-- C141: a plugin that could not be activated when it was installed, for hooks that do not exist, has no section; nor has one that was uninstalled. -/
theorem C141_removed (merge : Sec → Sec → Sec) (w : World) (ps : Objs) (c : Conf) (o : Nat) (a l i x d : Bool) (r : Ref) (s : CSt) :
    ((install merge w ps c o a l i x d s).1 = .incompatible → currentConfig ps o (install merge w ps c o a l i x d s).2 = none) ∧
    (find ps s.st r = some o → (uninstall ps r d s).1 = .ok → currentConfig ps o (uninstall ps r d s).2 = none) := by
  constructor
  · intro h
    rcases install_cfg merge w ps c o a l i x d s with ⟨-, -, e⟩ | ⟨-, -, e⟩ | ⟨e, -, -⟩
    · rcases e with e | e <;> rw [e] at h <;> cases h
    · exact absurd h e
    · unfold currentConfig
      rw [e, dictGet_pop, if_pos rfl]
  · intro hf h
    rcases uninstall_cfg ps r d s with ⟨e, -⟩ | ⟨o', hf', -, e, -⟩
    · exact absurd h e
    · rw [hf] at hf'
      cases hf'
      unfold currentConfig
      rw [e, dictGet_pop, if_pos rfl]

example : (install exMerge exWorld exObjs exConf 9 true false false false false {}).1 = .incompatible ∧
    (install exMerge exWorld exObjs exConf 9 true false false false false {}).2.cfg = [] ∧
    (install exMerge exWorld exObjs exConf 9 false false false false false {}).2.cfg ≠ [] := by decide +kernel

/-- What assignments of users make of a section. -/
def assigned (k : Str) : List COp → Sec → Sec
  | [], x => x
  | .set sec key v :: ops, x => assigned k ops (if sec = k ∧ key ∈ x.map (·.1) then dictSet key v x else x)
  | _ :: ops, x => assigned k ops x

/-- No operation of a history installs or uninstalls a plugin whose section is called `k`. -/
def Quiet (merge : Sec → Sec → Sec) (w : World) (ps : Objs) (c : Conf) (k : Str) : List COp → CSt → Prop
  | [], _ => True
  | op :: ops, s => ¬ Touches ps k s op ∧ Quiet merge w ps c k ops (op.run merge w ps c s)

theorem isSome_get {β : Type} (key : Str) (x : List (Str × β)) : (dictGet key x).isSome = true ↔ key ∈ x.map (·.1) := by
  induction x with
  | nil => simp [dictGet]
  | cons y x ih =>
    simp only [dictGet, List.map_cons, List.mem_cons]
    by_cases h : y.1 = key
    · simp [h]
    · rw [if_neg h, ih]
      constructor
      · exact .inr
      · rintro (e | e)
        · exact absurd e.symm h
        · exact e

/-- C141: what a user sets in a section stays there, whatever other plugins are installed, uninstalled, activated or deactivated meanwhile, and also
if the plugin itself is activated or deactivated: the section is what it was with the assignments of the user. -/
theorem C141_kept (merge : Sec → Sec → Sec) (w : World) (ps : Objs) (c : Conf) (k : Str) (ops : List COp) (s : CSt) (x : Sec)
    (hq : Quiet merge w ps c k ops s) (hx : dictGet k s.cfg = some x) :
    dictGet k (run merge w ps c ops s).cfg = some (assigned k ops x) := by
  induction ops generalizing s x with
  | nil => exact hx
  | cons op ops ih =>
    obtain ⟨h1, h2⟩ := hq
    show dictGet k (run merge w ps c ops (op.run merge w ps c s)).cfg = _
    cases op with
    | plug op => exact ih _ _ h2 ((C141_others_untouched merge w ps c op s k h1).trans hx)
    | set sec key v =>
      refine ih _ _ h2 ?_
      show dictGet k (assign sec key v s.cfg) = _
      rw [get_assign, hx]
      by_cases h : k = sec
      · subst h
        simp only [if_true, Option.map_some, true_and]
        congr 1
        by_cases hk : key ∈ x.map (·.1)
        · rw [if_pos hk, if_pos ((isSome_get _ _).2 hk)]
        · rw [if_neg hk, if_neg (fun e => hk ((isSome_get _ _).1 e))]
      · rw [if_neg h, if_neg (fun e => h e.1.symm)]

example : dictGet "other".toList (run exMerge exWorld exObjs exConf [.plug (.install 0 true false false false false), .set "other".toList "x".toList 9,
    .plug (.activate (.name "other".toList) false), .plug (.uninstall (.name "my-plugin".toList) false), .set "other".toList "z".toList 9]
    (install exMerge exWorld exObjs exConf 2 false false false false false {}).2).cfg = some [("x".toList, 9)] := by decide +kernel

/-- An operation does not install a plugin whose section is called as that of one that is installed. -/
def FreshOp (ps : Objs) (s : CSt) : COp → Prop
  | .plug (.install o _ _ _ _ _) => ∀ y ∈ s.st.installed, cfgName y.1 ≠ cfgName (ps o).name
  | _ => True

/-- No operation of a history does. -/
def AllFresh (merge : Sec → Sec → Sec) (w : World) (ps : Objs) (c : Conf) : List COp → CSt → Prop
  | [], _ => True
  | op :: ops, s => FreshOp ps s op ∧ AllFresh merge w ps c ops (op.run merge w ps c s)

/-- What holds in all states reached by such histories. -/
structure Exact (ps : Objs) (c : Conf) (s : CSt) : Prop where
  wf : WF ps s.st
  inj : ∀ y ∈ s.st.installed, ∀ z ∈ s.st.installed, cfgName y.1 = cfgName z.1 → y.1 = z.1
  sec : ∀ k, (dictGet k s.cfg).isSome = true ↔ ∃ y ∈ s.st.installed, cfgName y.1 = k ∧ ((c.old y.2.1).isSome = true ∨ (c.new y.2.1).isSome = true)

theorem Conf.of_some (c : Conf) (o : Nat) : (c.of o).isSome = true ↔ (c.old o).isSome = true ∨ (c.new o).isSome = true := by
  unfold Conf.of
  cases c.old o <;> simp

theorem mem_dictSet_new {β : Type} (k : Str) (v : β) (l : List (Str × β)) (h : ∀ y ∈ l, y.1 ≠ k) (y : Str × β) :
    y ∈ dictSet k v l ↔ y ∈ l ∨ y = (k, v) := by
  induction l with
  | nil => simp [dictSet]
  | cons z l ih =>
    simp only [dictSet]
    rw [if_neg (h z (List.mem_cons_self ..)), List.mem_cons, ih (fun y hy => h y (List.mem_cons_of_mem _ hy)), List.mem_cons, or_assoc]

theorem Exact.removed {ps : Objs} {c : Conf} {s s' : CSt} (h : Exact ps c s) (n : Str) (hw : WF ps s'.st) (hn : (dictGet n s.st.installed).isSome = true)
    (h1 : s'.cfg = dictPop (cfgName n) s.cfg) (h2 : s'.st.installed = dictPop n s.st.installed) : Exact ps c s' := by
  refine ⟨hw, ?_, ?_⟩
  · intro y hy z hz
    rw [h2, mem_dictPop] at hy hz
    exact h.inj y hy.1 z hz.1
  · intro k
    rw [h1, dictGet_pop, h2]
    by_cases hk : k = cfgName n
    · rw [if_pos hk]
      constructor
      · intro e; cases e
      · rintro ⟨y, hy, e, -⟩
        rw [mem_dictPop] at hy
        obtain ⟨v, hv⟩ := Option.isSome_iff_exists.1 hn
        exact absurd (h.inj y hy.1 (n, v) (dictGet_mem _ _ _ hv) (e.trans hk)) hy.2
    · rw [if_neg hk, h.sec k]
      constructor
      · rintro ⟨y, hy, e, hc⟩
        exact ⟨y, (mem_dictPop _ _ _).2 ⟨hy, fun e' => hk (by rw [← e, e'])⟩, e, hc⟩
      · rintro ⟨y, hy, e, hc⟩
        exact ⟨y, ((mem_dictPop _ _ _).1 hy).1, e, hc⟩

theorem Exact.same {ps : Objs} {c : Conf} {s s' : CSt} (h : Exact ps c s) (hw : WF ps s'.st) (h2 : s'.st.installed = s.st.installed)
    (h1 : ∀ k, (dictGet k s'.cfg).isSome = (dictGet k s.cfg).isSome) : Exact ps c s' := by
  refine ⟨hw, ?_, ?_⟩
  · rw [h2]; exact h.inj
  · intro k; rw [h1, h2]; exact h.sec k

theorem Exact.entered {merge : Sec → Sec → Sec} {ps : Objs} {c : Conf} {s s' : CSt} (h : Exact ps c s) (o : Nat) (i : Bool) (hw : WF ps s'.st)
    (hf : ∀ y ∈ s.st.installed, cfgName y.1 ≠ cfgName (ps o).name) (h1 : s'.cfg = configure merge ps c o s.cfg)
    (h2 : s'.st.installed = dictSet (ps o).name (o, i) s.st.installed) : Exact ps c s' := by
  have hm := mem_dictSet_new (ps o).name (o, i) s.st.installed (fun y hy e => hf y hy (by rw [e]))
  refine ⟨hw, ?_, ?_⟩
  · intro y hy z hz e
    rw [h2, hm] at hy hz
    rcases hy with hy | rfl <;> rcases hz with hz | rfl
    · exact h.inj y hy z hz e
    · exact absurd e (hf y hy)
    · exact absurd e.symm (hf z hz)
    · rfl
  · intro k
    rw [h1, get_configure, h2]
    by_cases hk : k = cfgName (ps o).name
    · subst hk
      rw [if_pos rfl]
      have hnone : dictGet (cfgName (ps o).name) s.cfg = none := by
        rw [← Option.not_isSome_iff_eq_none, h.sec]
        rintro ⟨y, hy, e, -⟩
        exact hf y hy e
      rw [hnone]
      constructor
      · intro e
        refine ⟨((ps o).name, o, i), (hm _).2 (.inr rfl), rfl, (c.of_some o).1 ?_⟩
        cases hc : c.of o with
        | none => rw [hc] at e; cases e
        | some d => rfl
      · rintro ⟨y, hy, e, hc⟩
        rcases (hm _).1 hy with hy | rfl
        · exact absurd e (hf y hy)
        · have hc' := (c.of_some o).2 hc
          obtain ⟨d, hd⟩ := Option.isSome_iff_exists.1 hc'
          rw [hd]; rfl
    · rw [if_neg hk, h.sec k]
      constructor
      · rintro ⟨y, hy, e, hc⟩
        exact ⟨y, (hm _).2 (.inl hy), e, hc⟩
      · rintro ⟨y, hy, e, hc⟩
        rcases (hm _).1 hy with hy | rfl
        · exact ⟨y, hy, e, hc⟩
        · exact absurd e.symm hk

theorem Exact.step {merge : Sec → Sec → Sec} {w : World} {ps : Objs} {c : Conf} {s : CSt} (h : Exact ps c s) (op : COp) (hf : FreshOp ps s op) :
    Exact ps c (op.run merge w ps c s) := by
  cases op with
  | set sec key v =>
    refine h.same h.wf rfl ?_
    intro k
    show (dictGet k (assign sec key v s.cfg)).isSome = _
    rw [get_assign]
    split
    · cases dictGet k s.cfg <;> rfl
    · rfl
  | plug op =>
    cases op with
    | install o a l i x d =>
      have hw : WF ps (install merge w ps c o a l i x d s).2.st := (install_st merge w ps c o a l i x d s).2 ▸ h.wf.install o a l i x d
      show Exact ps c (install merge w ps c o a l i x d s).2
      rcases install_cfg merge w ps c o a l i x d s with ⟨-, e, -⟩ | ⟨h1, h2, -⟩ | ⟨h1, h2, -⟩
      · rw [e]; exact h
      · exact h.entered o i hw hf h1 h2
      · have h' : Exact ps c { st := enter (ps o).name o i s.st, cfg := configure merge ps c o s.cfg } :=
          h.entered o i (h.wf.enter o i) hf rfl rfl
        refine h'.removed (ps o).name hw ?_ h1 h2
        show (dictGet (ps o).name (dictSet (ps o).name (o, i) s.st.installed)).isSome = true
        rw [dictGet_set, if_pos rfl]; rfl
    | uninstall r x =>
      have hw : WF ps (uninstall ps r x s).2.st := (uninstall_st ps r x s).2 ▸ h.wf.uninstall r x
      show Exact ps c (uninstall ps r x s).2
      rcases uninstall_cfg ps r x s with ⟨-, -, h1, h2⟩ | ⟨o, ho, -, h1, h2⟩
      · exact h.same hw h2 (fun k => by rw [h1])
      · exact h.removed (ps o).name hw (find_installed ps s.st h.wf r o ho) h1 h2
    | activate r x => exact h.same (h.wf.activate r x) (act_installed w ps r x s.st) (fun _ => rfl)
    | deactivate r x => exact h.same (h.wf.deactivate r x) (de_installed ps r x s.st) (fun _ => rfl)
    | activateLater r => exact h.same (h.wf.later r).1 (later_installed ps r s.st).1 (fun _ => rfl)
    | deactivateLater r => exact h.same (h.wf.later r).2 (later_installed ps r s.st).2 (fun _ => rfl)
    | activatePending a d oA oD => exact h.same (h.wf.step (.activatePending a d oA oD)) (ap_installed w ps a d oA oD s.st) (fun _ => rfl)

/-- C141, the part that holds (names that differ also with spaces written as underscores, and no plugin is installed over another): at any time,
there is a section for exactly the installed plugins that have defaults. -/
theorem C141_sections_partial (merge : Sec → Sec → Sec) (w : World) (ps : Objs) (c : Conf) (ops : List COp)
    (hf : AllFresh merge w ps c ops {}) (k : Str) :
    k ∈ (run merge w ps c ops {}).cfg.map (·.1) ↔
      ∃ y ∈ (run merge w ps c ops {}).st.installed, cfgName y.1 = k ∧ ((c.old y.2.1).isSome = true ∨ (c.new y.2.1).isSome = true) := by
  have gen : ∀ ops s, Exact ps c s → AllFresh merge w ps c ops s → Exact ps c (run merge w ps c ops s) := by
    intro ops
    induction ops with
    | nil => intro s h _; exact h
    | cons op ops ih =>
      intro s h hf
      exact ih _ (h.step op hf.1) hf.2
  have h0 : Exact ps c {} := ⟨WF.empty ps, (by intro y hy; cases hy), (by intro k; simp [dictGet])⟩
  rw [← (gen ops {} h0 hf).sec k, isSome_get]

example : AllFresh exMerge exWorld exObjs exConf [.plug (.install 0 true false false false false), .plug (.install 2 false true false false false),
    .plug (.uninstall (.name "my plugin".toList) false)] {} ∧
    (run exMerge exWorld exObjs exConf [.plug (.install 0 true false false false false), .plug (.install 2 false true false false false),
      .plug (.uninstall (.name "my plugin".toList) false)] {}).cfg = [("other".toList, [("x".toList, 7)])] := by
  refine ⟨⟨?_, ?_, ?_, ?_⟩, by decide +kernel⟩
  · intro y hy; cases hy
  · intro y hy
    have : y = ("my plugin".toList, 0, false) := by
      revert y; decide +kernel
    subst this
    decide +kernel
  · trivial
  · trivial

/-- C141, violated: with names that differ only in a space and an underscore, uninstalling one plugin removes the section of the other, whose
`current_config` fails from then on. -/
theorem C141_clash_violated :
    let s := run exMerge exWorld exObjs exConf [.plug (.install 0 false false false false false), .plug (.install 1 true false false false false),
      .plug (.uninstall (.obj 0) false)] {}
    "my_plugin".toList ∈ s.st.active ∧ (exConf.new 1).isSome = true ∧ currentConfig exObjs 1 s = none := by decide +kernel

/-- C141, violated: a plugin without defaults that is installed over one of the same name is given the section of the latter. -/
theorem C141_replaced_violated :
    let s := run exMerge exWorld exObjs exConf [.plug (.install 0 false false false false false), .plug (.install 4 true false false false false)] {}
    dictGet "my plugin".toList s.st.installed = some (4, false) ∧ exConf.old 4 = none ∧ exConf.new 4 = none ∧
      currentConfig exObjs 4 s = some [("x".toList, 0), ("y".toList, 1)] := by decide +kernel

end Slash.PConf
