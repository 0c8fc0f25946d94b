import Verif.Model.Plugins
import Verif.Lemmas.Util
/-!
# Properties of plugins: C43, C44, C76, C77
-/
namespace Slash.Plug

theorem dictGet_set {β : Type} (k k' : Str) (v : β) (l : List (Str × β)) :
    dictGet k (dictSet k' v l) = if k = k' then some v else dictGet k l := by
  induction l with
  | nil => simp only [dictSet, dictGet]; by_cases h : k = k' <;> simp [h, eq_comm]
  | cons x l ih =>
    simp only [dictSet]
    by_cases hx : x.1 = k'
    · rw [if_pos hx]
      simp only [dictGet]
      by_cases h : k = k'
      · simp [h]
      · rw [if_neg (fun e => h e.symm), if_neg h, if_neg (fun e => h (e.symm.trans hx))]
    · rw [if_neg hx]
      simp only [dictGet, ih]
      by_cases h : x.1 = k
      · rw [if_pos h, if_pos h, if_neg (fun e => hx (h.trans e))]
      · rw [if_neg h, if_neg h]

theorem dictGet_pop {β : Type} (k k' : Str) (l : List (Str × β)) :
    dictGet k (dictPop k' l) = if k = k' then none else dictGet k l := by
  induction l with
  | nil => simp [dictPop, dictGet]
  | cons x l ih =>
    unfold dictPop at ih ⊢
    rw [List.filter_cons]
    by_cases hx : x.1 = k'
    · have : (x.1 == k') = true := by simpa using hx
      rw [this, if_neg (by decide), ih]
      simp only [dictGet]
      by_cases h : k = k'
      · simp [h]
      · rw [if_neg h, if_neg h, if_neg (fun e => h (e.symm.trans hx))]
    · have : (x.1 == k') = false := by simpa using hx
      rw [this, if_pos (by decide)]
      simp only [dictGet, ih]
      by_cases h : x.1 = k
      · rw [if_pos h, if_pos h, if_neg (fun e => hx (h.trans e))]
      · rw [if_neg h, if_neg h]

theorem mem_dictSet {β : Type} (k : Str) (v : β) (l : List (Str × β)) (x : Str × β) (h : x ∈ dictSet k v l) : x = (k, v) ∨ x ∈ l := by
  induction l with
  | nil => simpa [dictSet] using h
  | cons y l ih =>
    simp only [dictSet] at h
    split at h
    · rcases List.mem_cons.1 h with h | h
      · exact .inl h
      · exact .inr (by simp [h])
    · rcases List.mem_cons.1 h with h | h
      · exact .inr (by simp [h])
      · rcases ih h with h | h
        · exact .inl h
        · exact .inr (by simp [h])

theorem mem_dictPop {β : Type} (k : Str) (l : List (Str × β)) (x : Str × β) : x ∈ dictPop k l ↔ x ∈ l ∧ x.1 ≠ k := by
  unfold dictPop
  rw [List.mem_filter]
  simp

theorem dictGet_mem {β : Type} (k : Str) (v : β) (l : List (Str × β)) (h : dictGet k l = some v) : (k, v) ∈ l := by
  induction l with
  | nil => cases h
  | cons x l ih =>
    simp only [dictGet] at h
    split at h
    · rename_i e; cases h; subst e; exact List.mem_cons_self
    · exact List.mem_cons_of_mem _ (ih h)

theorem dictGet_isSome {β : Type} (x : Str × β) (l : List (Str × β)) (h : x ∈ l) : (dictGet x.1 l).isSome = true := by
  induction l with
  | nil => cases h
  | cons y l ih =>
    simp only [dictGet]
    split
    · rfl
    · rename_i hne
      rcases List.mem_cons.1 h with rfl | h
      · exact absurd rfl hne
      · exact ih h

theorem mem_setAdd (k : Str) (l : List Str) (x : Str) : x ∈ setAdd k l ↔ x = k ∨ x ∈ l := by
  unfold setAdd
  split
  · rename_i h
    have : k ∈ l := by simpa using h
    constructor
    · exact .inr
    · rintro (rfl | h)
      · exact this
      · exact h
  · simp [or_comm]

theorem norm_norm (n : Str) : norm (norm n) = norm n := by
  unfold norm
  rw [List.map_map]
  apply List.map_congr_left
  intro c _
  simp only [Function.comp]
  by_cases h : c = ' '
  · simp [h]
  · simp [h]

/-- A registration of a method of a plugin, as opposed to one that does nothing but order others or toggle. -/
def Reg.isMethod (r : Reg) : Bool :=
  match r.cb with
  | .method _ _ => true
  | _ => false

/-- What holds in all states that can be reached. -/
structure WF (ps : Objs) (s : St) : Prop where
  key : ∀ x ∈ s.installed, (ps x.2.1).name = x.1
  act : ∀ n ∈ s.active, (dictGet n s.installed).isSome = true
  cmd : ∀ x ∈ s.cmdline, x.1 = norm x.2 ∧ (dictGet x.2 s.installed).isSome = true
  reg : ∀ r ∈ s.regs, r.isMethod = true → ∃ n ∈ s.active, r.token = some n

theorem find_installed (ps : Objs) (s : St) (h : WF ps s) (r : Ref) (o : Nat) (hf : find ps s r = some o) :
    (dictGet (ps o).name s.installed).isSome = true := by
  cases r with
  | name n =>
    simp only [find] at hf
    obtain ⟨x, hx, rfl⟩ := Option.map_eq_some_iff.1 hf
    rw [h.key _ (dictGet_mem _ _ _ hx), hx]; rfl
  | type t =>
    simp only [find] at hf
    obtain ⟨x, hx, rfl⟩ := Option.map_eq_some_iff.1 hf
    have hm := List.mem_of_find?_eq_some hx
    rw [h.key _ hm]
    exact dictGet_isSome _ _ hm
  | obj o' =>
    simp only [find] at hf
    split at hf
    · rename_i he
      cases hf
      obtain ⟨x, hx, -⟩ := Option.map_eq_some_iff.1 he
      rw [hx]; rfl
    · cases hf

/-- the plugin `n` is made inactive -/
def drop (n : Str) (s : St) : St :=
  { s with regs := s.regs.filter (fun r => !(r.token == some n)), active := s.active.filter (fun m => !(m == n)) }

theorem deactivate_cases (ps : Objs) (r : Ref) (x : Bool) (s : St) :
    (find ps s r = none ∧ deactivate ps r x s = (.unknownPlugin, s)) ∨
    ∃ o, find ps s r = some o ∧
      ((ps o).name ∈ s.active ∧ deactivate ps r x s = (if x then .userError else .ok, drop (ps o).name s) ∨
       (ps o).name ∉ s.active ∧ deactivate ps r x s = (.ok, s)) := by
  unfold deactivate
  cases find ps s r with
  | none => exact .inl ⟨rfl, rfl⟩
  | some o =>
    refine .inr ⟨o, rfl, ?_⟩
    by_cases h : (ps o).name ∈ s.active
    · exact .inl ⟨h, by simp only [List.contains_iff_mem, h, if_true]; rfl⟩
    · exact .inr ⟨h, by simp only [List.contains_iff_mem, h, if_false]⟩

theorem activate_cases (w : World) (ps : Objs) (r : Ref) (x : Bool) (s : St) :
    (find ps s r = none ∧ activate w ps r x s = (.unknownPlugin, s)) ∨
    ∃ o, find ps s r = some o ∧
      (x = true ∧ activate w ps r x s = (.userError, s) ∨
       x = false ∧ (registrations w (ps o) o).unknown ≠ [] ∧
         activate w ps r x s = (.incompatible, { s with regs := s.regs ++ (registrations w (ps o) o).noops }) ∨
       x = false ∧ (registrations w (ps o) o).unknown = [] ∧
         activate w ps r x s = (.ok, { s with
           regs := s.regs ++ (registrations w (ps o) o).noops ++ (registrations w (ps o) o).regs
           active := setAdd (ps o).name s.active })) := by
  unfold activate
  cases find ps s r with
  | none => exact .inl ⟨rfl, rfl⟩
  | some o =>
    refine .inr ⟨o, rfl, ?_⟩
    cases x with
    | true => exact .inl ⟨rfl, rfl⟩
    | false =>
      right
      by_cases h : (registrations w (ps o) o).unknown = []
      · right; exact ⟨rfl, h, by simp only [h, ne_eq, not_true_eq_false, if_false, Bool.false_eq_true]⟩
      · left; exact ⟨rfl, h, by simp only [h, ne_eq, not_false_eq_true, if_true, Bool.false_eq_true, if_false]⟩

theorem noops_not_method (w : World) (p : Plugin) (o : Nat) (r : Reg) (h : r ∈ (registrations w p o).noops) : r.isMethod = false := by
  unfold registrations at h
  simp only at h
  obtain ⟨x, -, rfl⟩ := List.mem_map.1 h
  rfl

theorem regs_token (w : World) (p : Plugin) (o : Nat) (r : Reg) (h : r ∈ (registrations w p o).regs) (hm : r.isMethod = true) :
    r.token = some p.name := by
  unfold registrations at h
  simp only at h
  rcases List.mem_append.1 h with h | h
  · obtain ⟨x, -, rfl⟩ := List.mem_map.1 h; rfl
  · split at h
    · rw [List.mem_singleton] at h; subst h; cases hm
    · cases h

theorem WF.activate {w : World} {ps : Objs} {s : St} (h : WF ps s) (r : Ref) (x : Bool) : WF ps (Plug.activate w ps r x s).2 := by
  rcases activate_cases w ps r x s with ⟨-, e⟩ | ⟨o, hf, ⟨-, e⟩ | ⟨-, -, e⟩ | ⟨-, -, e⟩⟩
  · rw [e]; exact h
  · rw [e]; exact h
  · rw [e]
    refine ⟨h.key, h.act, h.cmd, ?_⟩
    intro q hq hm
    rcases List.mem_append.1 hq with hq | hq
    · exact h.reg q hq hm
    · rw [noops_not_method _ _ _ _ hq] at hm; cases hm
  · rw [e]
    refine ⟨h.key, ?_, h.cmd, ?_⟩
    · intro n hn
      rcases (mem_setAdd _ _ _).1 hn with rfl | hn
      · exact find_installed ps s h r o hf
      · exact h.act n hn
    · intro q hq hm
      rcases List.mem_append.1 hq with hq | hq
      · rcases List.mem_append.1 hq with hq | hq
        · obtain ⟨n, hn, e⟩ := h.reg q hq hm
          exact ⟨n, (mem_setAdd _ _ _).2 (.inr hn), e⟩
        · rw [noops_not_method _ _ _ _ hq] at hm; cases hm
      · exact ⟨(ps o).name, (mem_setAdd _ _ _).2 (.inl rfl), regs_token _ _ _ _ hq hm⟩

theorem WF.drop {ps : Objs} {s : St} (h : WF ps s) (n : Str) : WF ps (drop n s) := by
  refine ⟨h.key, ?_, h.cmd, ?_⟩
  · intro m hm
    exact h.act m (List.mem_filter.1 hm).1
  · intro q hq hm
    obtain ⟨h1, h2⟩ := List.mem_filter.1 hq
    obtain ⟨m, hm', e⟩ := h.reg q h1 hm
    refine ⟨m, List.mem_filter.2 ⟨hm', ?_⟩, e⟩
    rw [e] at h2
    simpa using h2

theorem WF.deactivate {ps : Objs} {s : St} (h : WF ps s) (r : Ref) (x : Bool) : WF ps (Plug.deactivate ps r x s).2 := by
  rcases deactivate_cases ps r x s with ⟨-, e⟩ | ⟨o, -, ⟨-, e⟩ | ⟨-, e⟩⟩
  · rw [e]; exact h
  · rw [e]; exact h.drop _
  · rw [e]; exact h

/-- what uninstalling does after the plugin is inactive -/
def remove (n : Str) (s : St) : St := { s with installed := dictPop n s.installed, cmdline := dictPop (norm n) s.cmdline }

theorem uninstall_cases (ps : Objs) (r : Ref) (x : Bool) (s : St) :
    (Plug.uninstall ps r x s).2 = s ∧ (Plug.uninstall ps r x s).1 = .unknownPlugin ∨
    ∃ o, find ps s r = some o ∧
      ((ps o).name ∈ s.active ∧ x = true ∧ Plug.uninstall ps r x s = (.userError, drop (ps o).name s) ∨
       (ps o).name ∈ s.active ∧ x = false ∧ Plug.uninstall ps r x s = (.ok, remove (ps o).name (drop (ps o).name s)) ∨
       (ps o).name ∉ s.active ∧ Plug.uninstall ps r x s = (.ok, remove (ps o).name s)) := by
  unfold Plug.uninstall
  cases hf : find ps s r with
  | none => exact .inl ⟨rfl, rfl⟩
  | some o =>
    simp only
    rcases deactivate_cases ps (.obj o) x s with ⟨-, e⟩ | ⟨o', ho', ⟨hm, e⟩ | ⟨hm, e⟩⟩
    · rw [e]; exact .inl ⟨rfl, rfl⟩
    · have : o' = o := by
        simp only [find] at ho'
        split at ho'
        · cases ho'; rfl
        · cases ho'
      subst this
      rw [e]
      refine .inr ⟨o', rfl, ?_⟩
      cases x with
      | true => exact .inl ⟨hm, rfl, rfl⟩
      | false => exact .inr (.inl ⟨hm, rfl, rfl⟩)
    · have : o' = o := by
        simp only [find] at ho'
        split at ho'
        · cases ho'; rfl
        · cases ho'
      subst this
      rw [e]
      exact .inr ⟨o', rfl, .inr (.inr ⟨hm, rfl⟩)⟩

theorem WF.remove {ps : Objs} {s : St} (h : WF ps s) (n : Str) (hn : n ∉ s.active) : WF ps (remove n s) := by
  refine ⟨?_, ?_, ?_, h.reg⟩
  · intro x hx
    exact h.key x ((mem_dictPop _ _ _).1 hx).1
  · intro m hm
    show (dictGet m (dictPop n s.installed)).isSome = true
    rw [dictGet_pop, if_neg (fun e : m = n => hn (e ▸ hm))]
    exact h.act m hm
  · intro x hx
    obtain ⟨h1, h2⟩ := (mem_dictPop _ _ _).1 hx
    obtain ⟨h3, h4⟩ := h.cmd x h1
    refine ⟨h3, ?_⟩
    show (dictGet x.2 (dictPop n s.installed)).isSome = true
    rw [dictGet_pop, if_neg (fun e => h2 (by rw [h3, e]))]
    exact h4

theorem not_mem_drop (n : Str) (s : St) : n ∉ (drop n s).active := by
  intro h
  have := (List.mem_filter.1 h).2
  simp at this

theorem WF.uninstall {ps : Objs} {s : St} (h : WF ps s) (r : Ref) (x : Bool) : WF ps (Plug.uninstall ps r x s).2 := by
  rcases uninstall_cases ps r x s with ⟨e, -⟩ | ⟨o, -, ⟨-, -, e⟩ | ⟨-, -, e⟩ | ⟨hm, e⟩⟩
  · rw [e]; exact h
  · rw [e]; exact h.drop _
  · rw [e]; exact (h.drop _).remove _ (not_mem_drop _ _)
  · rw [e]; exact h.remove _ hm

theorem WF.later {ps : Objs} {s : St} (h : WF ps s) (r : Ref) : WF ps (activateLater ps r s).2 ∧ WF ps (deactivateLater ps r s).2 := by
  unfold activateLater deactivateLater
  cases find ps s r with
  | none => exact ⟨h, h⟩
  | some o => exact ⟨⟨h.key, h.act, h.cmd, h.reg⟩, ⟨h.key, h.act, h.cmd, h.reg⟩⟩

theorem WF.pend {ps : Objs} {s : St} (h : WF ps s) (a d : List Str) : WF ps { s with pendAct := a, pendDeact := d } :=
  ⟨h.key, h.act, h.cmd, h.reg⟩

/-- the state when the plugin is entered into the tables -/
def enter (n : Str) (o : Nat) (internal : Bool) (s : St) : St :=
  { s with installed := dictSet n (o, internal) s.installed, cmdline := dictSet (norm n) n s.cmdline }

theorem WF.enter {ps : Objs} {s : St} (h : WF ps s) (o : Nat) (i : Bool) : WF ps (enter (ps o).name o i s) := by
  have hmono : ∀ n, (dictGet n s.installed).isSome = true → (dictGet n (dictSet (ps o).name (o, i) s.installed)).isSome = true := by
    intro n hn
    rw [dictGet_set]
    split
    · rfl
    · exact hn
  refine ⟨?_, ?_, ?_, h.reg⟩
  · intro x hx
    rcases mem_dictSet _ _ _ _ hx with rfl | hx
    · rfl
    · exact h.key x hx
  · intro n hn
    exact hmono n (h.act n hn)
  · intro x hx
    rcases mem_dictSet _ _ _ _ hx with rfl | hx
    · refine ⟨rfl, ?_⟩
      show (dictGet (ps o).name (dictSet (ps o).name (o, i) s.installed)).isSome = true
      rw [dictGet_set, if_pos rfl]; rfl
    · exact ⟨(h.cmd x hx).1, hmono _ (h.cmd x hx).2⟩

theorem WF.install {w : World} {ps : Objs} {s : St} (h : WF ps s) (o : Nat) (a l i x d : Bool) :
    WF ps (Plug.install w ps o a l i x d s).2 := by
  unfold Plug.install
  split
  · exact h
  split
  · exact h
  simp only
  have h1 : WF ps { s with
      installed := dictSet (ps o).name (o, i) s.installed
      cmdline := dictSet (norm (ps o).name) (ps o).name s.cmdline } := h.enter o i
  generalize ({ s with
      installed := dictSet (ps o).name (o, i) s.installed
      cmdline := dictSet (norm (ps o).name) (ps o).name s.cmdline } : St) = s1 at h1 ⊢
  have h2 : ∀ R : Res × St, WF ps R.2 → WF ps (match R with
      | (.ok, s) => if l then activateLater ps (.name (ps o).name) s else (.ok, s)
      | x => x).2 := by
    intro R hR
    obtain ⟨r, s2⟩ := R
    cases r <;> simp only
    · cases l
      · exact hR
      · exact (WF.later hR _).1
    all_goals exact hR
  apply h2
  cases a with
  | false => exact h1
  | true =>
    have h3 := h1.activate (w := w) (.name (ps o).name) x
    rw [if_pos rfl]
    generalize Plug.activate w ps (.name (ps o).name) x s1 = R at h3 ⊢
    obtain ⟨r, s2⟩ := R
    cases r <;> try exact h3
    have h4 := WF.uninstall (show WF ps s2 from h3) (.obj o) d
    simp only
    generalize Plug.uninstall ps (.obj o) d s2 = R at h4 ⊢
    obtain ⟨r, s3⟩ := R
    cases r <;> exact h4

theorem WF.pendingActivations {w : World} {ps : Objs} (x : Str → Bool) (l : List Str) {s : St} (h : WF ps s) :
    WF ps (Plug.pendingActivations w ps x l s).2 := by
  induction l generalizing s with
  | nil => exact h
  | cons n l ih =>
    simp only [Plug.pendingActivations]
    have h1 : WF ps { s with pendAct := s.pendAct.filter (fun m => !(m == n)) } := h.pend _ _
    split
    · exact ih h1
    · have h2 := h1.activate (w := w) (.name n) (x n)
      generalize Plug.activate w ps (.name n) (x n) { s with pendAct := s.pendAct.filter (fun m => !(m == n)) } = R at h2 ⊢
      obtain ⟨r, s2⟩ := R
      cases r
      · exact ih h2
      all_goals exact h2

theorem WF.pendingDeactivations {ps : Objs} (x : Str → Bool) (l : List Str) {s : St} (h : WF ps s) :
    WF ps (Plug.pendingDeactivations ps x l s).2 := by
  induction l generalizing s with
  | nil => exact h
  | cons n l ih =>
    simp only [Plug.pendingDeactivations]
    have h1 : WF ps { s with pendDeact := s.pendDeact.filter (fun m => !(m == n)) } := h.pend _ _
    split
    · have h2 := h1.deactivate (.name n) (x n)
      generalize Plug.deactivate ps (.name n) (x n) { s with pendDeact := s.pendDeact.filter (fun m => !(m == n)) } = R at h2 ⊢
      obtain ⟨r, s2⟩ := R
      cases r
      · exact ih h2
      all_goals exact h2
    · exact ih h1

theorem WF.step {w : World} {ps : Objs} {s : St} (h : WF ps s) (op : Op) : WF ps (op.run w ps s).2 := by
  cases op with
  | install o a l i x d => exact h.install o a l i x d
  | uninstall r x => exact h.uninstall r x
  | activate r x => exact h.activate r x
  | deactivate r x => exact h.deactivate r x
  | activateLater r => exact (h.later r).1
  | deactivateLater r => exact (h.later r).2
  | activatePending a d oA oD =>
    show WF ps (Plug.activatePending w ps a d oA oD s).2
    unfold Plug.activatePending
    have h1 := WF.pendingActivations (w := w) a oA h
    generalize Plug.pendingActivations w ps a oA s = R at h1 ⊢
    obtain ⟨r, s1⟩ := R
    cases r
    · exact WF.pendingDeactivations d oD h1
    all_goals exact h1

theorem WF.run {w : World} {ps : Objs} {s : St} (h : WF ps s) (ops : List Op) : WF ps (Plug.run w ps ops s) := by
  induction ops generalizing s with
  | nil => exact h
  | cons op ops ih => exact ih (h.step op)

theorem WF.empty (ps : Objs) : WF ps {} :=
  ⟨(fun _ h => by cases h), (fun _ h => by cases h), (fun _ h => by cases h), (fun _ h => by cases h)⟩

/-! ## C43 -/

/-- C43: whatever operations are performed, and whichever of them raise, all active plugins are installed. -/
theorem C43_active_installed (w : World) (ps : Objs) (ops : List Op) (n : Str) (h : n ∈ (run w ps ops {}).active) :
    ∃ o i, dictGet n (run w ps ops {}).installed = some (o, i) ∧ (ps o).name = n := by
  have hw := (WF.empty ps).run (w := w) ops
  have := hw.act n h
  rw [Option.isSome_iff_exists] at this
  obtain ⟨⟨o, i⟩, e⟩ := this
  exact ⟨o, i, e, hw.key _ (dictGet_mem _ _ _ e)⟩

/-- C43: no method is registered for a plugin that is not active. -/
theorem C43_inactive_has_none (w : World) (ps : Objs) (ops : List Op) (r : Reg) (h : r ∈ (run w ps ops {}).regs) (o : Nat) (m : Str)
    (hm : r.cb = .method o m) : ∃ n ∈ (run w ps ops {}).active, r.token = some n :=
  ((WF.empty ps).run (w := w) ops).reg r h (by unfold Reg.isMethod; rw [hm])

/-- a plugin named `a` with one method, which is called like a hook -/
def exPlugin : Plugin := { name := ['a'], methods := [{ name := ['h'] }] }
/-- all hooks exist -/
def exWorld : World := { known := fun _ _ => true, slash := ["slash.h".toList, "slash.g".toList] }

example : run exWorld (fun _ => exPlugin) [.install 0 true false false false false] {} =
    { installed := [(['a'], 0, false)], cmdline := [(['a'], ['a'])], active := [['a']],
      regs := [{ hook := "slash.h".toList, token := some ['a'], cb := .method 0 ['h'] }] } := by decide +kernel
example : (run exWorld (fun _ => exPlugin) [.install 0 true false false false false, .uninstall (.obj 0) true] {}).regs = [] := by decide +kernel

/-- Plugins are not activated while they are active, and the tables are not changed for active ones. -/
def Fresh (ps : Objs) (s : St) : Op → Prop
  | .install o _ _ _ _ _ => (ps o).name ∉ s.active
  | .activate r _ => ∀ o, find ps s r = some o → (ps o).name ∉ s.active
  | .activatePending _ _ oA _ => oA.Nodup ∧ ∀ n ∈ oA, n ∉ s.active ∧ (dictGet n s.cmdline).getD n = n
  | _ => True

/-- All operations of a history are as `Fresh` says. -/
def AllFresh (w : World) (ps : Objs) : List Op → St → Prop
  | [], _ => True
  | op :: ops, s => Fresh ps s op ∧ AllFresh w ps ops (op.run w ps s).2

/-- the methods registered for the plugin called `n` -/
def methodsOf (n : Str) (s : St) : List Reg := s.regs.filter (fun r => r.isMethod && r.token == some n)

/-- for each active plugin, exactly what its installed object asks for is registered -/
def Exact (w : World) (ps : Objs) (s : St) : Prop :=
  ∀ n ∈ s.active, ∀ o i, dictGet n s.installed = some (o, i) →
    methodsOf n s = ((registrations w (ps o) o).regs.filter (·.isMethod))

theorem methodsOf_nil {ps : Objs} {s : St} (h : WF ps s) (n : Str) (hn : n ∉ s.active) : methodsOf n s = [] := by
  unfold methodsOf
  rw [List.filter_eq_nil_iff]
  intro r hr hm
  simp only [Bool.and_eq_true, beq_iff_eq] at hm
  obtain ⟨m, hm', e⟩ := h.reg r hr hm.1
  rw [hm.2] at e
  cases e
  exact hn hm'

theorem methodsOf_activated (w : World) (ps : Objs) (o : Nat) (n : Str) (s : St) :
    methodsOf n { s with
           regs := s.regs ++ (registrations w (ps o) o).noops ++ (registrations w (ps o) o).regs
           active := setAdd (ps o).name s.active } =
      methodsOf n s ++ if n = (ps o).name then (registrations w (ps o) o).regs.filter (·.isMethod) else [] := by
  unfold methodsOf
  simp only [List.filter_append]
  have h1 : (registrations w (ps o) o).noops.filter (fun r => r.isMethod && r.token == some n) = [] := by
    rw [List.filter_eq_nil_iff]
    intro r hr hm
    rw [noops_not_method _ _ _ _ hr] at hm
    simp at hm
  rw [h1, List.append_nil]
  congr 1
  split
  · rename_i e
    apply List.filter_congr
    intro r hr
    cases hm : r.isMethod with
    | false => rfl
    | true => rw [regs_token _ _ _ _ hr hm, e]; simp
  · rename_i e
    rw [List.filter_eq_nil_iff]
    intro r hr hm
    simp only [Bool.and_eq_true, beq_iff_eq] at hm
    rw [regs_token _ _ _ _ hr hm.1] at hm
    exact e (Option.some.inj hm.2).symm

theorem find_get {ps : Objs} {s : St} (h : WF ps s) (r : Ref) (o : Nat) (hf : find ps s r = some o)
    (hd : (s.installed.map (·.1)).Nodup) : ∃ i, dictGet (ps o).name s.installed = some (o, i) := by
  cases r with
  | name n =>
    simp only [find] at hf
    obtain ⟨x, hx, rfl⟩ := Option.map_eq_some_iff.1 hf
    rw [h.key _ (dictGet_mem _ _ _ hx)]
    exact ⟨_, hx⟩
  | type t =>
    simp only [find] at hf
    obtain ⟨x, hx, rfl⟩ := Option.map_eq_some_iff.1 hf
    have hm := List.mem_of_find?_eq_some hx
    have hs := dictGet_isSome _ _ hm
    rw [Option.isSome_iff_exists] at hs
    obtain ⟨y, hy⟩ := hs
    have := inj_on_of_nodup_map hd hm (dictGet_mem _ _ _ hy) rfl
    rw [h.key _ hm, hy]
    cases x
    cases this
    exact ⟨_, rfl⟩
  | obj o' =>
    simp only [find] at hf
    split at hf
    · rename_i he
      cases hf
      obtain ⟨x, hx, e⟩ := Option.map_eq_some_iff.1 he
      subst e
      exact ⟨_, hx⟩
    · cases hf

/-- what is preserved if all operations are fresh -/
structure Good (w : World) (ps : Objs) (s : St) : Prop where
  wf : WF ps s
  dist : (s.installed.map (·.1)).Nodup
  exact : Exact w ps s

theorem keys_dictSet {β : Type} (k : Str) (v : β) (l : List (Str × β)) (h : (l.map (·.1)).Nodup) :
    ((dictSet k v l).map (·.1)).Nodup ∧ ∀ x, x ∈ (dictSet k v l).map (·.1) ↔ x = k ∨ x ∈ l.map (·.1) := by
  induction l with
  | nil => simp [dictSet]
  | cons y l ih =>
    simp only [List.map_cons, List.nodup_cons] at h
    simp only [dictSet]
    split
    · rename_i e
      subst e
      simp only [List.map_cons, List.nodup_cons]
      exact ⟨h, fun x => by simp⟩
    · rename_i e
      simp only [List.map_cons, List.nodup_cons]
      obtain ⟨a, b⟩ := ih h.2
      refine ⟨⟨?_, a⟩, ?_⟩
      · rw [b]
        rintro (h' | h')
        · exact e h'
        · exact h.1 h'
      · intro x
        rw [List.mem_cons, b]
        simp only [List.mem_cons]
        constructor
        · rintro (h | h | h)
          · exact .inr (.inl h)
          · exact .inl h
          · exact .inr (.inr h)
        · rintro (h | h | h)
          · exact .inr (.inl h)
          · exact .inl h
          · exact .inr (.inr h)

theorem Good.activate {w : World} {ps : Objs} {s : St} (h : Good w ps s) (r : Ref) (x : Bool)
    (hf : ∀ o, find ps s r = some o → (ps o).name ∉ s.active) : Good w ps (Plug.activate w ps r x s).2 := by
  refine ⟨h.wf.activate r x, ?_, ?_⟩
  · rcases activate_cases w ps r x s with ⟨-, e⟩ | ⟨o, -, ⟨-, e⟩ | ⟨-, -, e⟩ | ⟨-, -, e⟩⟩ <;> rw [e] <;> exact h.dist
  · rcases activate_cases w ps r x s with ⟨-, e⟩ | ⟨o, hfo, ⟨-, e⟩ | ⟨-, -, e⟩ | ⟨-, -, e⟩⟩
    · rw [e]; exact h.exact
    · rw [e]; exact h.exact
    · rw [e]
      intro n hn o' i ho'
      rw [← h.exact n hn o' i ho']
      unfold methodsOf
      simp only [List.filter_append]
      refine (congrArg _ ?_).trans (List.append_nil _)
      rw [List.filter_eq_nil_iff]
      intro r hr hm
      rw [noops_not_method _ _ _ _ hr] at hm
      simp at hm
    · rw [e]
      intro n hn o' i ho'
      rw [methodsOf_activated]
      rcases (mem_setAdd _ _ _).1 hn with rfl | hn'
      · rw [if_pos rfl, methodsOf_nil h.wf _ (hf o hfo), List.nil_append]
        obtain ⟨i', hi'⟩ := find_get h.wf r o hfo h.dist
        have : some (o, i') = some (o', i) := hi'.symm.trans ho'
        cases this
        rfl
      · rw [if_neg (fun e : n = (ps o).name => hf o hfo (e ▸ hn')), List.append_nil]
        exact h.exact n hn' o' i ho'

theorem Good.drop {w : World} {ps : Objs} {s : St} (h : Good w ps s) (n : Str) : Good w ps (drop n s) := by
  refine ⟨h.wf.drop n, h.dist, ?_⟩
  intro m hm o i ho
  obtain ⟨h1, h2⟩ := List.mem_filter.1 hm
  rw [← h.exact m h1 o i ho]
  unfold methodsOf Plug.drop
  simp only [List.filter_filter]
  apply List.filter_congr
  intro r _
  have hne : m ≠ n := by simpa using h2
  cases hr : (r.isMethod && r.token == some m) with
  | false => rfl
  | true =>
    simp only [Bool.and_eq_true, beq_iff_eq] at hr
    rw [hr.2]
    simp [hne]

theorem Good.deactivate {w : World} {ps : Objs} {s : St} (h : Good w ps s) (r : Ref) (x : Bool) :
    Good w ps (Plug.deactivate ps r x s).2 := by
  rcases deactivate_cases ps r x s with ⟨-, e⟩ | ⟨o, -, ⟨-, e⟩ | ⟨-, e⟩⟩
  · rw [e]; exact h
  · rw [e]; exact h.drop _
  · rw [e]; exact h

theorem Good.remove {w : World} {ps : Objs} {s : St} (h : Good w ps s) (n : Str) (hn : n ∉ s.active) : Good w ps (remove n s) := by
  refine ⟨h.wf.remove n hn, ?_, ?_⟩
  · exact (List.filter_sublist.map _).nodup h.dist
  · intro m hm o i ho
    have ho : dictGet m (dictPop n s.installed) = some (o, i) := ho
    rw [dictGet_pop, if_neg (fun e : m = n => hn (e ▸ hm))] at ho
    exact h.exact m hm o i ho

theorem Good.uninstall {w : World} {ps : Objs} {s : St} (h : Good w ps s) (r : Ref) (x : Bool) : Good w ps (Plug.uninstall ps r x s).2 := by
  rcases uninstall_cases ps r x s with ⟨e, -⟩ | ⟨o, -, ⟨-, -, e⟩ | ⟨-, -, e⟩ | ⟨hm, e⟩⟩
  · rw [e]; exact h
  · rw [e]; exact h.drop _
  · rw [e]; exact (h.drop _).remove _ (not_mem_drop _ _)
  · rw [e]; exact h.remove _ hm

theorem Good.pend {w : World} {ps : Objs} {s : St} (h : Good w ps s) (a d : List Str) : Good w ps { s with pendAct := a, pendDeact := d } :=
  ⟨h.wf.pend a d, h.dist, h.exact⟩

theorem Good.later {w : World} {ps : Objs} {s : St} (h : Good w ps s) (r : Ref) :
    Good w ps (activateLater ps r s).2 ∧ Good w ps (deactivateLater ps r s).2 := by
  unfold activateLater deactivateLater
  cases find ps s r with
  | none => exact ⟨h, h⟩
  | some o => exact ⟨h.pend _ _, h.pend _ _⟩

theorem Good.enter {w : World} {ps : Objs} {s : St} (h : Good w ps s) (o : Nat) (i : Bool) (hn : (ps o).name ∉ s.active) :
    Good w ps (enter (ps o).name o i s) := by
  refine ⟨h.wf.enter o i, (keys_dictSet _ _ _ h.dist).1, ?_⟩
  intro m hm o' i' ho
  have ho : dictGet m (dictSet (ps o).name (o, i) s.installed) = some (o', i') := ho
  rw [dictGet_set, if_neg (fun e : m = (ps o).name => hn (e ▸ hm))] at ho
  exact h.exact m hm o' i' ho

/-- the object `_get_installed_plugin` finds for a name has the name the table of the command line gives -/
theorem find_name {ps : Objs} {s : St} (h : WF ps s) (n : Str) (o : Nat) (hf : find ps s (.name n) = some o) :
    (ps o).name = (dictGet n s.cmdline).getD n := by
  simp only [find] at hf
  obtain ⟨x, hx, rfl⟩ := Option.map_eq_some_iff.1 hf
  exact h.key _ (dictGet_mem _ _ _ hx)

theorem get_cmd_entered (n : Str) (s : List (Str × Str)) (h : ∀ x ∈ s, x.1 = norm x.2) :
    (dictGet n (dictSet (norm n) n s)).getD n = n := by
  rw [dictGet_set]
  split
  · rfl
  · rename_i hne
    cases hg : dictGet n s with
    | none => rfl
    | some v =>
      have := h _ (dictGet_mem _ _ _ hg)
      simp only at this
      exact absurd (by rw [this, norm_norm]) hne

theorem Good.install {w : World} {ps : Objs} {s : St} (h : Good w ps s) (o : Nat) (a l i x d : Bool) (hn : (ps o).name ∉ s.active) :
    Good w ps (Plug.install w ps o a l i x d s).2 := by
  unfold Plug.install
  split
  · exact h
  split
  · exact h
  simp only
  have h1 : Good w ps { s with
      installed := dictSet (ps o).name (o, i) s.installed
      cmdline := dictSet (norm (ps o).name) (ps o).name s.cmdline } := h.enter o i hn
  have hcmd : (dictGet (ps o).name (dictSet (norm (ps o).name) (ps o).name s.cmdline)).getD (ps o).name = (ps o).name :=
    get_cmd_entered _ _ (fun x hx => (h.wf.cmd x hx).1)
  have hfind : ∀ o', find ps { s with
      installed := dictSet (ps o).name (o, i) s.installed
      cmdline := dictSet (norm (ps o).name) (ps o).name s.cmdline } (.name (ps o).name) = some o' → (ps o').name ∉ s.active := by
    intro o' ho'
    have := find_name h1.wf _ _ ho'
    rw [this]
    show (dictGet (ps o).name (dictSet (norm (ps o).name) (ps o).name s.cmdline)).getD (ps o).name ∉ _
    rw [hcmd]; exact hn
  have hact : ({ s with
      installed := dictSet (ps o).name (o, i) s.installed
      cmdline := dictSet (norm (ps o).name) (ps o).name s.cmdline } : St).active = s.active := rfl
  rw [← hact] at hfind
  clear hact
  generalize ({ s with
      installed := dictSet (ps o).name (o, i) s.installed
      cmdline := dictSet (norm (ps o).name) (ps o).name s.cmdline } : St) = s1 at h1 hfind ⊢
  have h2 : ∀ R : Res × St, Good w ps R.2 → Good w ps (match R with
      | (.ok, s) => if l then activateLater ps (.name (ps o).name) s else (.ok, s)
      | x => x).2 := by
    intro R hR
    obtain ⟨r, s2⟩ := R
    cases r <;> simp only
    · cases l
      · exact hR
      · exact (Good.later hR _).1
    all_goals exact hR
  apply h2
  cases a with
  | false => exact h1
  | true =>
    have h3 := h1.activate (.name (ps o).name) x hfind
    rw [if_pos rfl]
    generalize Plug.activate w ps (.name (ps o).name) x s1 = R at h3 ⊢
    obtain ⟨r, s2⟩ := R
    cases r <;> try exact h3
    have h4 := Good.uninstall (show Good w ps s2 from h3) (.obj o) d
    simp only
    generalize Plug.uninstall ps (.obj o) d s2 = R at h4 ⊢
    obtain ⟨r, s3⟩ := R
    cases r <;> exact h4

theorem Good.pendingActivations {w : World} {ps : Objs} (x : Str → Bool) (l : List Str) {s : St} (h : Good w ps s)
    (hn : l.Nodup) (hl : ∀ n ∈ l, n ∉ s.active ∧ (dictGet n s.cmdline).getD n = n) :
    Good w ps (Plug.pendingActivations w ps x l s).2 := by
  induction l generalizing s with
  | nil => exact h
  | cons n l ih =>
    rw [List.nodup_cons] at hn
    simp only [Plug.pendingActivations]
    have h1 : Good w ps { s with pendAct := s.pendAct.filter (fun m => !(m == n)) } := h.pend _ _
    split
    · exact ih h1 hn.2 (fun m hm => hl m (by simp [hm]))
    · have hfind : ∀ o, find ps { s with pendAct := s.pendAct.filter (fun m => !(m == n)) } (.name n) = some o → (ps o).name = n := by
        intro o ho
        rw [find_name h1.wf _ _ ho]
        exact (hl n (by simp)).2
      have h2 := h1.activate (.name n) (x n) (fun o ho => by rw [hfind o ho]; exact (hl n (by simp)).1)
      rcases activate_cases w ps (.name n) (x n) { s with pendAct := s.pendAct.filter (fun m => !(m == n)) } with
        ⟨-, e⟩ | ⟨o, ho, ⟨-, e⟩ | ⟨-, -, e⟩ | ⟨-, -, e⟩⟩
      · rw [e] at h2 ⊢; exact h2
      · rw [e] at h2 ⊢; exact h2
      · rw [e] at h2 ⊢; exact h2
      · rw [e] at h2 ⊢
        refine ih h2 hn.2 (fun m hm => ⟨?_, (hl m (by simp [hm])).2⟩)
        intro hmem
        rcases (mem_setAdd _ _ _).1 hmem with rfl | hmem
        · rw [hfind o ho] at hm; exact hn.1 hm
        · exact (hl m (by simp [hm])).1 hmem

theorem Good.pendingDeactivations {w : World} {ps : Objs} (x : Str → Bool) (l : List Str) {s : St} (h : Good w ps s) :
    Good w ps (Plug.pendingDeactivations ps x l s).2 := by
  induction l generalizing s with
  | nil => exact h
  | cons n l ih =>
    simp only [Plug.pendingDeactivations]
    have h1 : Good w ps { s with pendDeact := s.pendDeact.filter (fun m => !(m == n)) } := h.pend _ _
    split
    · have h2 := h1.deactivate (.name n) (x n)
      generalize Plug.deactivate ps (.name n) (x n) { s with pendDeact := s.pendDeact.filter (fun m => !(m == n)) } = R at h2 ⊢
      obtain ⟨r, s2⟩ := R
      cases r
      · exact ih h2
      all_goals exact h2
    · exact ih h1

theorem Good.step {w : World} {ps : Objs} {s : St} (h : Good w ps s) (op : Op) (hf : Fresh ps s op) : Good w ps (op.run w ps s).2 := by
  cases op with
  | install o a l i x d => exact h.install o a l i x d hf
  | uninstall r x => exact h.uninstall r x
  | activate r x => exact h.activate r x hf
  | deactivate r x => exact h.deactivate r x
  | activateLater r => exact (h.later r).1
  | deactivateLater r => exact (h.later r).2
  | activatePending a d oA oD =>
    show Good w ps (Plug.activatePending w ps a d oA oD s).2
    unfold Plug.activatePending
    have h1 := Good.pendingActivations a oA h hf.1 hf.2
    generalize Plug.pendingActivations w ps a oA s = R at h1 ⊢
    obtain ⟨r, s1⟩ := R
    cases r
    · exact Good.pendingDeactivations d oD h1
    all_goals exact h1

/-- C43, the part that holds (active plugins are not activated again, and not replaced by another one of the same name): the methods
registered for an active plugin are exactly those its installed object asks for, each as often as it asks. -/
theorem C43_registered_once_partial (w : World) (ps : Objs) (ops : List Op) (hf : AllFresh w ps ops {}) (n : Str)
    (hn : n ∈ (run w ps ops {}).active) (o : Nat) (i : Bool) (ho : dictGet n (run w ps ops {}).installed = some (o, i)) :
    (run w ps ops {}).regs.filter (fun r => r.isMethod && r.token == some n) = (registrations w (ps o) o).regs.filter (·.isMethod) := by
  have key : ∀ (ops : List Op) (s : St), Good w ps s → AllFresh w ps ops s → Good w ps (run w ps ops s) := by
    intro ops
    induction ops with
    | nil => intro s h _; exact h
    | cons op ops ih => intro s h hf; exact ih _ (h.step op hf.1) hf.2
  have h0 : Good w ps {} := ⟨WF.empty ps, List.nodup_nil, (fun _ h => by cases h)⟩
  exact (key ops _ h0 hf).exact n hn o i ho

example : AllFresh exWorld (fun _ => exPlugin)
    [.install 0 true false false false false, .deactivate (.name ['a']) false, .activate (.obj 0) false] {} := by
  refine ⟨?_, trivial, ?_, trivial⟩
  · show (['a'] : Str) ∉ ([] : List Str)
    decide
  · intro o _
    have : (Op.run exWorld (fun _ => exPlugin) (.deactivate (.name ['a']) false)
      (Op.run exWorld (fun _ => exPlugin) (.install 0 true false false false false) {}).2).2.active = [] := by decide +kernel
    rw [this]
    exact List.not_mem_nil

/-- C43 fails if an active plugin is activated again: its methods are registered twice. -/
theorem C43_twice_violated :
    (run exWorld (fun _ => exPlugin) [.install 0 true false false false false, .activate (.obj 0) false] {}).regs =
      [{ hook := "slash.h".toList, token := some ['a'], cb := .method 0 ['h'] },
       { hook := "slash.h".toList, token := some ['a'], cb := .method 0 ['h'] }] := by decide +kernel

/-- C43 fails if another plugin of the same name is installed: the methods of the one that was active stay registered although it is not
installed any more. -/
theorem C43_replaced_violated :
    let s := run exWorld (fun _ => exPlugin) [.install 0 true false false false false, .install 1 false false false false false] {}
    s.installed = [(['a'], 1, false)] ∧ s.regs = [{ hook := "slash.h".toList, token := some ['a'], cb := .method 0 ['h'] }] := by decide +kernel

/-- C43 fails for what orders hooks: if activating a plugin is refused, the no-ops registered for it stay, even when it is uninstalled. -/
theorem C43_noops_violated :
    let w : World := { exWorld with known := fun h _ => h == "slash.g".toList }
    let p : Plugin := { exPlugin with provides := true }
    let s := run w (fun _ => p) [.install 0 true false false false false, .uninstall (.obj 0) false] {}
    s.installed = [] ∧ s.active = [] ∧ s.regs.map (·.cb) = [.noop 0, .noop 0] := by decide +kernel

/-- C43 fails for toggles: a plugin which uses the end of the session, but not its start, leaves a registration for the start when it is
deactivated. -/
theorem C43_toggle_violated :
    let p : Plugin := { name := ['a'], methods := [{ name := "session_end".toList }] }
    let s := run exWorld (fun _ => p) [.install 0 true false false false false, .uninstall (.obj 0) false] {}
    s.installed = [] ∧ s.active = [] ∧ s.regs = [{ hook := sessionStart, token := none, cb := .toggle 0 }] := by decide +kernel


/-! ## C44 -/

/-- No two installed plugins are called the same on the command line, where spaces are written as dashes. -/
def NoClash (s : St) : Prop :=
  ∀ n m, (dictGet n s.installed).isSome = true → (dictGet m s.installed).isSome = true → norm n = norm m → n = m

theorem WF.resolve {ps : Objs} {s : St} (h : WF ps s) (hc : NoClash s) (n : Str) (hn : (dictGet n s.installed).isSome = true) :
    (dictGet n s.cmdline).getD n = n := by
  cases hg : dictGet n s.cmdline with
  | none => rfl
  | some v =>
    obtain ⟨h1, h2⟩ := h.cmd _ (dictGet_mem _ _ _ hg)
    simp only at h1 h2
    exact (hc n v hn h2 (by rw [h1, norm_norm])).symm

theorem find_resolve {ps : Objs} {s : St} (h : WF ps s) (n : Str) (hn : (dictGet n s.installed).isSome = true)
    (hr : (dictGet n s.cmdline).getD n = n) : ∃ o, find ps s (.name n) = some o ∧ (ps o).name = n := by
  rw [Option.isSome_iff_exists] at hn
  obtain ⟨x, hx⟩ := hn
  refine ⟨x.1, ?_, h.key _ (dictGet_mem _ _ _ hx)⟩
  simp only [find, hr, hx, Option.map_some]

theorem pendingActivations_spec {w : World} {ps : Objs} (x : Str → Bool) (l : List Str) {s s' : St} (h : WF ps s)
    (hr : ∀ n ∈ l, n ∉ s.pendDeact → (dictGet n s.cmdline).getD n = n)
    (hok : pendingActivations w ps x l s = (.ok, s')) :
    s'.installed = s.installed ∧ s'.cmdline = s.cmdline ∧ s'.pendDeact = s.pendDeact ∧
    (∀ n, n ∈ s'.pendAct ↔ n ∈ s.pendAct ∧ n ∉ l) ∧
    ∀ n, n ∈ s'.active ↔ n ∈ s.active ∨ n ∈ l ∧ n ∉ s.pendDeact := by
  induction l generalizing s with
  | nil => cases hok; simp
  | cons n l ih =>
    simp only [pendingActivations] at hok
    have h1 : WF ps { s with pendAct := s.pendAct.filter (fun m => !(m == n)) } := h.pend _ _
    have hp : ∀ m, m ∈ s.pendAct.filter (fun m => !(m == n)) ↔ m ∈ s.pendAct ∧ m ≠ n := by
      intro m; rw [List.mem_filter]; simp
    split at hok
    · rename_i hd
      have hd : n ∈ s.pendDeact := by simpa using hd
      obtain ⟨a, b, c, d, e⟩ := ih h1 (fun m hm => hr m (by simp [hm])) hok
      refine ⟨a, b, c, ?_, ?_⟩
      · intro m
        rw [d, hp]
        simp only [List.mem_cons, not_or]
        constructor
        · rintro ⟨⟨h1, h2⟩, h3⟩; exact ⟨h1, h2, h3⟩
        · rintro ⟨h1, h2, h3⟩; exact ⟨⟨h1, h2⟩, h3⟩
      · intro m
        rw [e]
        simp only [List.mem_cons]
        constructor
        · rintro (h | ⟨h1, h2⟩)
          · exact .inl h
          · exact .inr ⟨.inr h1, h2⟩
        · rintro (h | ⟨rfl | h1, h2⟩)
          · exact .inl h
          · exact absurd hd h2
          · exact .inr ⟨h1, h2⟩
    · rename_i hd
      have hd : n ∉ s.pendDeact := by simpa using hd
      rcases activate_cases w ps (.name n) (x n) { s with pendAct := s.pendAct.filter (fun m => !(m == n)) } with
        ⟨-, e⟩ | ⟨o, ho, ⟨-, e⟩ | ⟨-, -, e⟩ | ⟨-, -, e⟩⟩
      · rw [e] at hok; cases hok
      · rw [e] at hok; cases hok
      · rw [e] at hok; cases hok
      · rw [e] at hok
        simp only at hok
        have hname : (ps o).name = n := by
          rw [find_name h1 _ _ ho]
          exact hr n (by simp) hd
        have h2 := h1.activate (w := w) (.name n) (x n)
        rw [e] at h2
        obtain ⟨a, b, c, d, f⟩ := ih h2 (fun m hm => hr m (by simp [hm])) hok
        refine ⟨a, b, c, ?_, ?_⟩
        · intro m
          rw [d]
          simp only
          rw [hp]
          simp only [List.mem_cons, not_or]
          constructor
          · rintro ⟨⟨h1, h2⟩, h3⟩; exact ⟨h1, h2, h3⟩
          · rintro ⟨h1, h2, h3⟩; exact ⟨⟨h1, h2⟩, h3⟩
        · intro m
          rw [f]
          simp only
          rw [mem_setAdd, hname]
          simp only [List.mem_cons]
          constructor
          · rintro ((rfl | h) | ⟨h1, h2⟩)
            · exact .inr ⟨.inl rfl, hd⟩
            · exact .inl h
            · exact .inr ⟨.inr h1, h2⟩
          · rintro (h | ⟨rfl | h1, h2⟩)
            · exact .inl (.inr h)
            · exact .inl (.inl rfl)
            · exact .inr ⟨h1, h2⟩

theorem pendingDeactivations_spec {ps : Objs} (x : Str → Bool) (l : List Str) {s s' : St} (h : WF ps s)
    (hr : ∀ n ∈ l, n ∈ s.active → (dictGet n s.cmdline).getD n = n)
    (hok : pendingDeactivations ps x l s = (.ok, s')) :
    s'.installed = s.installed ∧ s'.pendAct = s.pendAct ∧
    (∀ n, n ∈ s'.pendDeact ↔ n ∈ s.pendDeact ∧ n ∉ l) ∧
    ∀ n, n ∈ s'.active ↔ n ∈ s.active ∧ n ∉ l := by
  induction l generalizing s with
  | nil => cases hok; simp
  | cons n l ih =>
    simp only [pendingDeactivations] at hok
    have h1 : WF ps { s with pendDeact := s.pendDeact.filter (fun m => !(m == n)) } := h.pend _ _
    have hp : ∀ m (t : List Str), m ∈ t.filter (fun m => !(m == n)) ↔ m ∈ t ∧ m ≠ n := by
      intro m t; rw [List.mem_filter]; simp
    have hsplit : ∀ (m : Str) (P : Prop), (P ∧ m ≠ n) ∧ m ∉ l ↔ P ∧ m ∉ n :: l := by
      intro m P
      simp only [List.mem_cons, not_or]
      exact ⟨fun ⟨⟨a, b⟩, c⟩ => ⟨a, b, c⟩, fun ⟨a, b, c⟩ => ⟨⟨a, b⟩, c⟩⟩
    split at hok
    · rename_i hd
      have hd : n ∈ s.active := by simpa using hd
      rcases deactivate_cases ps (.name n) (x n) { s with pendDeact := s.pendDeact.filter (fun m => !(m == n)) } with
        ⟨-, e⟩ | ⟨o, ho, ⟨-, e⟩ | ⟨hm, e⟩⟩
      · rw [e] at hok; cases hok
      · have hname : (ps o).name = n := by
          rw [find_name h1 _ _ ho]
          exact hr n (by simp) hd
        rw [e, hname] at hok
        cases hx : x n with
        | true => rw [hx] at hok; cases hok
        | false =>
          rw [hx] at hok
          simp only [Bool.false_eq_true, if_false] at hok
          obtain ⟨a, b, c, d⟩ := ih (h1.drop n) (fun m hm hact => hr m (by simp [hm]) ((hp m _).1 hact).1) hok
          refine ⟨a, b, ?_, ?_⟩
          · intro m
            rw [c]
            show m ∈ s.pendDeact.filter (fun m => !(m == n)) ∧ m ∉ l ↔ _
            rw [hp, hsplit]
          · intro m
            rw [d]
            show m ∈ s.active.filter (fun m => !(m == n)) ∧ m ∉ l ↔ _
            rw [hp, hsplit]
      · have hname : (ps o).name = n := by
          rw [find_name h1 _ _ ho]
          exact hr n (by simp) hd
        rw [hname] at hm
        exact absurd hd hm
    · rename_i hd
      have hd : n ∉ s.active := by simpa using hd
      obtain ⟨a, b, c, d⟩ := ih h1 (fun m hm hact => hr m (by simp [hm]) hact) hok
      refine ⟨a, b, ?_, ?_⟩
      · intro m
        rw [c]
        show m ∈ s.pendDeact.filter (fun m => !(m == n)) ∧ m ∉ l ↔ _
        rw [hp, hsplit]
      · intro m
        rw [d]
        simp only [List.mem_cons, not_or]
        constructor
        · rintro ⟨h1, h2⟩
          exact ⟨h1, fun e => hd (e ▸ h1), h2⟩
        · rintro ⟨h1, _, h2⟩; exact ⟨h1, h2⟩

theorem mem_foldl_setAdd (l : List Str) (acc : List Str) (n : Str) : n ∈ l.foldl (fun l n => setAdd n l) acc ↔ n ∈ acc ∨ n ∈ l := by
  induction l generalizing acc with
  | nil => simp
  | cons x l ih =>
    rw [List.foldl_cons, ih, mem_setAdd, List.mem_cons]
    constructor
    · rintro ((h | h) | h)
      · exact .inr (.inl h)
      · exact .inl h
      · exact .inr (.inr h)
    · rintro (h | h | h)
      · exact .inl (.inr h)
      · exact .inl (.inl h)
      · exact .inr h

/-- C44, the part that holds (no two installed plugins have names that are the same on the command line, and no plugin was uninstalled while its
activation was pending): after any history, if activating and deactivating what is pending succeeds, in whatever order, exactly those plugins are
active that were active or asked for and not asked to be inactive, which is what was predicted; and nothing is pending any more. -/
theorem C44_without_wins_partial (w : World) (ps : Objs) (ops : List Op) (raisesA raisesD : Str → Bool) (oA oD : List Str) (s' : St)
    (hc : NoClash (run w ps ops {}))
    (hA : ∀ n, n ∈ oA ↔ n ∈ (run w ps ops {}).pendAct) (hD : ∀ n, n ∈ oD ↔ n ∈ (run w ps ops {}).pendDeact)
    (l : List Str) (hfut : futureActive (run w ps ops {}) = some l)
    (hok : activatePending w ps raisesA raisesD oA oD (run w ps ops {}) = (.ok, s')) :
    (∀ n, n ∈ s'.active ↔ (n ∈ (run w ps ops {}).active ∨ n ∈ (run w ps ops {}).pendAct) ∧ n ∉ (run w ps ops {}).pendDeact) ∧
    (∀ n, n ∈ l ↔ n ∈ s'.active) ∧ s'.pendAct = [] ∧ s'.pendDeact = [] := by
  have hw := (WF.empty ps).run (w := w) ops
  generalize run w ps ops {} = s at hw hc hA hD hok hfut
  unfold futureActive at hfut
  split at hfut
  · rename_i hall
    simp only [List.all_eq_true] at hall
    cases hfut
    unfold activatePending at hok
    have hres := fun n (hn : n ∈ oA) (_ : n ∉ s.pendDeact) => hw.resolve hc n (hall n ((hA n).1 hn))
    cases hp : pendingActivations w ps raisesA oA s with
    | mk r s1 =>
      rw [hp] at hok
      cases r with
      | ok =>
        simp only at hok
        obtain ⟨a, b, c, d, e⟩ := pendingActivations_spec raisesA oA hw hres hp
        have hw1 := hw.pendingActivations (w := w) raisesA oA
        rw [hp] at hw1
        obtain ⟨a', b', c', d'⟩ := pendingDeactivations_spec raisesD oD (s := s1) hw1 (fun n _ hact => by
          rw [b]
          rcases (e n).1 hact with h | ⟨h, _⟩
          · exact hw.resolve hc n (hw.act n h)
          · exact hw.resolve hc n (hall n ((hA n).1 h))) hok
        have hactive : ∀ n, n ∈ s'.active ↔ (n ∈ s.active ∨ n ∈ s.pendAct) ∧ n ∉ s.pendDeact := by
          intro n
          rw [d', e, hD, hA]
          constructor
          · rintro ⟨h | ⟨h, _⟩, h'⟩
            · exact ⟨.inl h, h'⟩
            · exact ⟨.inr h, h'⟩
          · rintro ⟨h | h, h'⟩
            · exact ⟨.inl h, h'⟩
            · exact ⟨.inr ⟨h, h'⟩, h'⟩
        refine ⟨hactive, ?_, ?_, ?_⟩
        · intro n
          rw [hactive, List.mem_filter, mem_foldl_setAdd]
          simp
        · rw [b', List.eq_nil_iff_forall_not_mem]
          intro n hn
          obtain ⟨h1, h2⟩ := (d n).1 hn
          exact h2 ((hA n).2 h1)
        · rw [List.eq_nil_iff_forall_not_mem]
          intro n hn
          obtain ⟨h1, h2⟩ := (c' n).1 hn
          rw [c] at h1
          exact h2 ((hD n).2 h1)
      | _ => cases hok
  · cases hfut

/-- plugin `n` of the examples is named by the n-th letter -/
def exObjs : Objs := fun n => { name := [Char.ofNat (97 + n)], methods := [{ name := ['h'] }] }

/-- plugins `a`, `b` and `c`; `a` is active, `b` and `c` are to be activated, `a` and `c` deactivated -/
example :
    let s := run exWorld exObjs [.install 0 true false false false false, .install 1 false true false false false,
      .install 2 false false false false false, .activateLater (.name ['c']), .deactivateLater (.obj 2), .deactivateLater (.name ['a'])] {}
    futureActive s = some [['b']] ∧
      (activatePending exWorld exObjs (fun _ => false) (fun _ => false) [['c'], ['b']] [['a'], ['c']] s).2.active = [['b']] := by
  decide +kernel

/-- C44 holds also if both names are used: the order of the requests does not matter. -/
example :
    let s := run exWorld exObjs [.install 0 false false false false false, .deactivateLater (.obj 0), .activateLater (.obj 0)] {}
    futureActive s = some [] := by decide +kernel

theorem pend_activate (w : World) (ps : Objs) (r : Ref) (x : Bool) (s : St) :
    (activate w ps r x s).2.pendAct = s.pendAct ∧ (activate w ps r x s).2.pendDeact = s.pendDeact := by
  rcases activate_cases w ps r x s with ⟨-, e⟩ | ⟨o, -, ⟨-, e⟩ | ⟨-, -, e⟩ | ⟨-, -, e⟩⟩ <;> rw [e] <;> exact ⟨rfl, rfl⟩

theorem pend_deactivate (ps : Objs) (r : Ref) (x : Bool) (s : St) :
    (deactivate ps r x s).2.pendAct = s.pendAct ∧ (deactivate ps r x s).2.pendDeact = s.pendDeact := by
  unfold deactivate
  split
  · exact ⟨rfl, rfl⟩
  · simp only; split <;> exact ⟨rfl, rfl⟩

theorem pend_uninstall (ps : Objs) (r : Ref) (x : Bool) (s : St) :
    (uninstall ps r x s).2.pendAct = s.pendAct ∧ (uninstall ps r x s).2.pendDeact = s.pendDeact := by
  unfold uninstall
  split
  · exact ⟨rfl, rfl⟩
  · rename_i o _
    have h := pend_deactivate ps (.obj o) x s
    split <;> (rename_i heq; rw [heq] at h; exact h)

theorem pend_later (ps : Objs) (r : Ref) (s : St) (n : Str) :
    (n ∈ s.pendAct → n ∈ (activateLater ps r s).2.pendAct) ∧ (n ∈ s.pendDeact → n ∈ (activateLater ps r s).2.pendDeact) ∧
    (n ∈ s.pendAct → n ∈ (deactivateLater ps r s).2.pendAct) ∧ (n ∈ s.pendDeact → n ∈ (deactivateLater ps r s).2.pendDeact) := by
  unfold activateLater deactivateLater
  split
  · exact ⟨id, id, id, id⟩
  · exact ⟨fun h => (mem_setAdd _ _ _).2 (.inr h), id, id, fun h => (mem_setAdd _ _ _).2 (.inr h)⟩

theorem pend_install (w : World) (ps : Objs) (o : Nat) (a l i x d : Bool) (s : St) (n : Str) :
    (n ∈ s.pendAct → n ∈ (install w ps o a l i x d s).2.pendAct) ∧
    (n ∈ s.pendDeact → n ∈ (install w ps o a l i x d s).2.pendDeact) := by
  unfold install
  split
  · exact ⟨id, id⟩
  · split
    · exact ⟨id, id⟩
    · simp only
      generalize hs0 : ({ s with installed := dictSet (ps o).name (o, i) s.installed,
                                 cmdline := dictSet (norm (ps o).name) (ps o).name s.cmdline } : St) = s0
      have h0 : s0.pendAct = s.pendAct ∧ s0.pendDeact = s.pendDeact := by subst hs0; exact ⟨rfl, rfl⟩
      have hr : ∀ r : Res × St, r = (if a = true then
            match activate w ps (.name (ps o).name) x s0 with
            | (.incompatible, s) =>
              match uninstall ps (.obj o) d s with
              | (.ok, s) => (Res.incompatible, s)
              | e => e
            | x => x
          else (Res.ok, s0)) → r.2.pendAct = s.pendAct ∧ r.2.pendDeact = s.pendDeact := by
        rintro r rfl
        split
        · have h1 := pend_activate w ps (.name (ps o).name) x s0
          split
          · rename_i s1 heq
            rw [heq] at h1
            have h2 := pend_uninstall ps (.obj o) d s1
            split
            · rename_i heq2; rw [heq2] at h2; exact ⟨h2.1.trans (h1.1.trans h0.1), h2.2.trans (h1.2.trans h0.2)⟩
            · exact ⟨h2.1.trans (h1.1.trans h0.1), h2.2.trans (h1.2.trans h0.2)⟩
          · exact ⟨h1.1.trans h0.1, h1.2.trans h0.2⟩
        · exact h0
      have hr := hr _ rfl
      generalize (if a = true then _ else _ : Res × St) = r at hr
      split
      · rename_i s1
        split
        · have h3 := pend_later ps (.name (ps o).name) s1 n
          exact ⟨fun h => h3.1 (by rw [hr.1]; exact h), fun h => h3.2.1 (by rw [hr.2]; exact h)⟩
        · exact ⟨fun h => by rw [hr.1]; exact h, fun h => by rw [hr.2]; exact h⟩
      · exact ⟨fun h => by rw [hr.1]; exact h, fun h => by rw [hr.2]; exact h⟩

/-- C44, requests: a plugin that was asked to be active, or to be inactive, later, is pending to be so until the pending requests are carried out,
whatever happens in between. -/
theorem C44_requests (w : World) (ps : Objs) (ops ops' : List Op) (r : Ref) (o : Nat)
    (hf : find ps (run w ps ops {}) r = some o) (hq : ∀ op ∈ ops', ∀ a d oA oD, op ≠ .activatePending a d oA oD) :
    (ps o).name ∈ (run w ps (ops ++ .activateLater r :: ops') {}).pendAct ∧
    (ps o).name ∈ (run w ps (ops ++ .deactivateLater r :: ops') {}).pendDeact := by
  have hstep : ∀ (n : Str) (op : Op) (s : St), (∀ a d oA oD, op ≠ .activatePending a d oA oD) →
      (n ∈ s.pendAct → n ∈ (op.run w ps s).2.pendAct) ∧ (n ∈ s.pendDeact → n ∈ (op.run w ps s).2.pendDeact) := by
    intro n op s hop
    cases op with
    | install o a l i x d => exact pend_install w ps o a l i x d s n
    | uninstall r x =>
      have := pend_uninstall ps r x s
      exact ⟨fun h => by rw [Op.run, this.1]; exact h, fun h => by rw [Op.run, this.2]; exact h⟩
    | activate r x =>
      have := pend_activate w ps r x s
      exact ⟨fun h => by rw [Op.run, this.1]; exact h, fun h => by rw [Op.run, this.2]; exact h⟩
    | deactivate r x =>
      have := pend_deactivate ps r x s
      exact ⟨fun h => by rw [Op.run, this.1]; exact h, fun h => by rw [Op.run, this.2]; exact h⟩
    | activateLater r => exact ⟨(pend_later ps r s n).1, (pend_later ps r s n).2.1⟩
    | deactivateLater r => exact ⟨(pend_later ps r s n).2.2.1, (pend_later ps r s n).2.2.2⟩
    | activatePending a d oA oD => exact absurd rfl (hop a d oA oD)
  have hrun : ∀ (n : Str) (l : List Op) (s : St), (∀ op ∈ l, ∀ a d oA oD, op ≠ .activatePending a d oA oD) →
      (n ∈ s.pendAct → n ∈ (run w ps l s).pendAct) ∧ (n ∈ s.pendDeact → n ∈ (run w ps l s).pendDeact) := by
    intro n l
    induction l with
    | nil => intro s _; exact ⟨id, id⟩
    | cons op l ih =>
      intro s h
      have h1 := hstep n op s (h op List.mem_cons_self)
      have h2 := ih (op.run w ps s).2 (fun op' ho => h op' (List.mem_cons_of_mem _ ho))
      exact ⟨fun h => h2.1 (h1.1 h), fun h => h2.2 (h1.2 h)⟩
  have split' : ∀ op, run w ps (ops ++ op :: ops') {} = run w ps ops' (op.run w ps (run w ps ops {})).2 := by
    intro op; simp only [run, List.foldl_append, List.foldl_cons]
  rw [split', split']
  refine ⟨(hrun _ _ _ hq).1 ?_, (hrun _ _ _ hq).2 ?_⟩
  · simp only [Op.run, activateLater, hf]; exact (mem_setAdd _ _ _).2 (.inl rfl)
  · simp only [Op.run, deactivateLater, hf]; exact (mem_setAdd _ _ _).2 (.inl rfl)

example : (run exWorld exObjs ([.install 0 false false false false false] ++ .deactivateLater (.obj 0) ::
    [.activate (.obj 0) false]) {}).pendDeact = [(exObjs 0).name] := by decide +kernel

/-- C44: activating what is pending succeeds if all plugins asked for are installed, know their hooks, and nothing raises. -/
theorem C44_succeeds_partial (w : World) (ps : Objs) (ops : List Op) (oA oD : List Str)
    (hc : NoClash (run w ps ops {}))
    (hA : ∀ n ∈ oA, ∃ o i, dictGet n (run w ps ops {}).installed = some (o, i) ∧ (registrations w (ps o) o).unknown = []) :
    ∃ s', activatePending w ps (fun _ => false) (fun _ => false) oA oD (run w ps ops {}) = (.ok, s') := by
  have hw := (WF.empty ps).run (w := w) ops
  generalize run w ps ops {} = s at hw hc hA
  have h1 : ∀ (l : List Str) (s1 : St), WF ps s1 → s1.installed = s.installed → s1.cmdline = s.cmdline →
      (∀ n ∈ l, ∃ o i, dictGet n s.installed = some (o, i) ∧ (registrations w (ps o) o).unknown = []) →
      ∃ s2, pendingActivations w ps (fun _ => false) l s1 = (.ok, s2) ∧ s2.installed = s.installed ∧ s2.cmdline = s.cmdline := by
    intro l
    induction l with
    | nil => intro s1 _ hi hcm _; exact ⟨s1, rfl, hi, hcm⟩
    | cons n l ih =>
      intro s1 hw1 hi hcm hl
      simp only [pendingActivations]
      split
      · exact ih _ (hw1.pend _ _) hi hcm (fun m hm => hl m (by simp [hm]))
      · obtain ⟨o, i, ho, hu⟩ := hl n (by simp)
        have hf : find ps { s1 with pendAct := s1.pendAct.filter (fun m => !(m == n)) } (.name n) = some o := by
          simp only [find, hi, hcm]
          rw [hw.resolve hc n (by rw [ho]; rfl), ho]
          rfl
        have hw1' : WF ps { s1 with pendAct := s1.pendAct.filter (fun m => !(m == n)) } := hw1.pend _ _
        rcases activate_cases w ps (.name n) false { s1 with pendAct := s1.pendAct.filter (fun m => !(m == n)) } with
          ⟨h, e⟩ | ⟨o', ho', ⟨h, e⟩ | ⟨-, h, e⟩ | ⟨-, -, e⟩⟩
        · rw [hf] at h; cases h
        · cases h
        · rw [hf] at ho'; cases ho'; exact absurd hu h
        · have hw2 := hw1'.activate (w := w) (.name n) false
          rw [e] at hw2
          rw [e]
          exact ih _ hw2 hi hcm (fun m hm => hl m (by simp [hm]))
  have h2 : ∀ (l : List Str) (s1 : St), WF ps s1 → s1.installed = s.installed → s1.cmdline = s.cmdline →
      ∃ s2, pendingDeactivations ps (fun _ => false) l s1 = (.ok, s2) := by
    intro l
    induction l with
    | nil => intro s1 _ _ _; exact ⟨s1, rfl⟩
    | cons n l ih =>
      intro s1 hw1 hi hcm
      simp only [pendingDeactivations]
      split
      · rename_i hm
        have hm : n ∈ s1.active := by simpa using hm
        have hin : (dictGet n s.installed).isSome = true := by rw [← hi]; exact hw1.act n hm
        have hw1' : WF ps { s1 with pendDeact := s1.pendDeact.filter (fun m => !(m == n)) } := hw1.pend _ _
        rcases deactivate_cases ps (.name n) false { s1 with pendDeact := s1.pendDeact.filter (fun m => !(m == n)) } with
          ⟨h, e⟩ | ⟨o, -, ⟨-, e⟩ | ⟨-, e⟩⟩
        · obtain ⟨o, ho, -⟩ := find_resolve hw1' n (by show (dictGet n s1.installed).isSome = true; rw [hi]; exact hin)
            (by show (dictGet n s1.cmdline).getD n = n; rw [hcm]; exact hw.resolve hc n hin)
          rw [h] at ho; cases ho
        · rw [e]
          exact ih _ (hw1'.drop _) hi hcm
        · rw [e]
          exact ih _ hw1' hi hcm
      · exact ih _ (hw1.pend _ _) hi hcm
  obtain ⟨s1, e1, hi, hcm⟩ := h1 oA s hw rfl rfl hA
  have hw1 := hw.pendingActivations (w := w) (fun _ => false) oA
  rw [e1] at hw1
  obtain ⟨s2, e2⟩ := h2 oD s1 hw1 hi hcm
  exact ⟨s2, by unfold activatePending; rw [e1]; exact e2⟩

example : (activatePending exWorld exObjs (fun _ => false) (fun _ => false) [['a']] []
    (run exWorld exObjs [.install 0 false true false false false] {})).1 = .ok := by decide +kernel

/-- C44 fails for plugins whose names are the same on the command line: asking for the plugin `a-b`, by the object itself, activates `a b`, although
`a-b` was predicted. -/
theorem C44_clash_violated :
    let ps : Objs := fun n => { name := if n = 0 then ['a', '-', 'b'] else ['a', ' ', 'b'] }
    let s := run exWorld ps [.install 0 false false false false false, .install 1 false false false false false, .activateLater (.obj 0)] {}
    futureActive s = some [['a', '-', 'b']] ∧
      (activatePending exWorld ps (fun _ => false) (fun _ => false) s.pendAct s.pendDeact s).2.active = [['a', ' ', 'b']] := by decide +kernel

/-- C44 fails if a plugin is uninstalled while its activation is pending: the others are not activated either. -/
theorem C44_uninstalled_violated :
    let s := run exWorld exObjs [.install 0 false true false false false, .install 1 false true false false false, .uninstall (.obj 0) false] {}
    futureActive s = none ∧
      (activatePending exWorld exObjs (fun _ => false) (fun _ => false) s.pendAct s.pendDeact s).1 = .unknownPlugin ∧
      (activatePending exWorld exObjs (fun _ => false) (fun _ => false) s.pendAct s.pendDeact s).2.active = [] := by decide +kernel

/-! ## C76 -/

/-- A method of a plugin is to be called by the hook: it is callable, not one all plugins have, its condition holds, and it has a mark which
names the hook, or no such marks, a name not beginning with an underscore, and the name of the hook in the slash group. `e`: the hook has to
exist, which is so in the latter case. -/
def Calls (m : Method) (h : Str) (e : Bool) : Prop :=
  m.skipped = false ∧ m.callable = true ∧ m.registerIf = true ∧
    ((∃ l, m.registerOn = some l ∧ { hook := some h, expectExists := e } ∈ l) ∨
     (m.registerOn = none ∧ m.name.head? ≠ some '_' ∧ h = "slash.".toList ++ m.name ∧ e = true))

theorem mem_wants (m : Method) (h : Str) (e : Bool) : (h, e) ∈ m.wants ↔ Calls m h e := by
  unfold Method.wants Calls
  cases hs : m.skipped with
  | true => simp
  | false =>
    cases hc : m.callable with
    | false => simp
    | true =>
      cases hr : m.registerOn with
      | some l =>
        simp only [Bool.not_true, Bool.false_eq_true, if_false, List.mem_filterMap, true_and, Option.some.injEq]
        constructor
        · rintro ⟨⟨hk, i⟩, hi, he⟩
          cases hk with
          | none => cases he
          | some h' =>
            simp only at he
            split at he
            · rename_i hri
              cases he
              exact ⟨hri, .inl ⟨l, rfl, hi⟩⟩
            · cases he
        · rintro ⟨hri, ⟨l', rfl, hi⟩ | ⟨h', -⟩⟩
          · refine ⟨_, hi, ?_⟩
            simp only [hri, if_true]
          · cases h'
      | none =>
        simp only [Bool.not_true, Bool.false_eq_true, if_false, true_and]
        by_cases hu : m.name.head? = some '_'
        · simp [hu]
        · cases hri : m.registerIf with
          | false => simp [hu]
          | true => simp [hu]

theorem mem_plugin_wants (p : Plugin) (m : Method) (h : Str) (e : Bool) : (m, h, e) ∈ p.wants ↔ m ∈ p.methods ∧ Calls m h e := by
  unfold Plugin.wants
  rw [← mem_wants]
  constructor
  · rintro he
    obtain ⟨l, hl, he⟩ := List.mem_flatten.1 he
    obtain ⟨m', hm', rfl⟩ := List.mem_map.1 hl
    obtain ⟨x, hx, hx'⟩ := List.mem_map.1 he
    cases hx'
    exact ⟨hm', hx⟩
  · rintro ⟨hm, he⟩
    exact List.mem_flatten.2 ⟨_, List.mem_map.2 ⟨m, hm, rfl⟩, List.mem_map.2 ⟨(h, e), he, rfl⟩⟩

/-- C76: activating a plugin is refused if and only if one of its methods is to be called by a hook that is not known; no method is registered
then, and the plugin is not active unless it was. -/
theorem C76_refused (w : World) (ps : Objs) (r : Ref) (s : St) (o : Nat) (hf : find ps s r = some o) :
    ((activate w ps r false s).1 = .incompatible ↔ ∃ m ∈ (ps o).methods, ∃ h e, Calls m h e ∧ w.known h e = false) ∧
    ((activate w ps r false s).1 = .incompatible → (activate w ps r false s).2.active = s.active ∧
      (activate w ps r false s).2.regs.filter (·.isMethod) = s.regs.filter (·.isMethod)) := by
  have hun : (registrations w (ps o) o).unknown = [] ↔ ¬ ∃ m ∈ (ps o).methods, ∃ h e, Calls m h e ∧ w.known h e = false := by
    unfold registrations
    simp only [List.map_eq_nil_iff, List.filter_eq_nil_iff]
    constructor
    · rintro hall ⟨m, hm, h, e, hc, hkn⟩
      have := hall _ ((mem_plugin_wants (ps o) m h e).2 ⟨hm, hc⟩)
      rw [hkn] at this
      exact this rfl
    · rintro hno ⟨m, h, e⟩ hx
      obtain ⟨hm, hc⟩ := (mem_plugin_wants (ps o) m h e).1 hx
      intro hkn
      exact hno ⟨m, hm, h, e, hc, by simpa using hkn⟩
  rcases activate_cases w ps r false s with ⟨h, -⟩ | ⟨o', ho', ⟨h, -⟩ | ⟨-, h, e⟩ | ⟨-, h, e⟩⟩
  · rw [hf] at h; cases h
  · cases h
  · rw [hf] at ho'; cases ho'
    rw [e]
    refine ⟨⟨fun _ => ?_, fun _ => rfl⟩, fun _ => ⟨rfl, ?_⟩⟩
    · exact Classical.not_not.1 (fun hno => h (hun.2 hno))
    · simp only [List.filter_append]
      refine (congrArg _ ?_).trans (List.append_nil _)
      rw [List.filter_eq_nil_iff]
      intro q hq hm
      rw [noops_not_method _ _ _ _ hq] at hm
      cases hm
  · rw [hf] at ho'; cases ho'
    rw [e]
    exact ⟨⟨(fun h => by cases h), fun hex => absurd hex (hun.1 h)⟩, (fun h => by cases h)⟩

/-- C76: if activating an inactive plugin succeeds, a method of it is registered for a hook if and only if it is to be called by it. -/
theorem C76_registers (w : World) (ps : Objs) (ops : List Op) (r : Ref) (o : Nat) (s' : St)
    (hf : find ps (run w ps ops {}) r = some o) (hin : (ps o).name ∉ (run w ps ops {}).active)
    (hok : activate w ps r false (run w ps ops {}) = (.ok, s')) (h : Str) (m : Str) :
    { hook := h, token := some (ps o).name, cb := .method o m } ∈ s'.regs ↔ ∃ x ∈ (ps o).methods, x.name = m ∧ ∃ e, Calls x h e := by
  have hw := (WF.empty ps).run (w := w) ops
  generalize run w ps ops {} = s at hw hf hin hok
  rcases activate_cases w ps r false s with ⟨h', -⟩ | ⟨o', ho', ⟨h', -⟩ | ⟨-, -, e⟩ | ⟨-, hun, e⟩⟩
  · rw [hf] at h'; cases h'
  · cases h'
  · rw [e] at hok; cases hok
  · rw [hf] at ho'; cases ho'
    rw [e] at hok
    cases hok
    simp only [List.mem_append]
    constructor
    · rintro ((h1 | h1) | h1)
      · obtain ⟨n, hn, e'⟩ := hw.reg _ h1 rfl
        cases e'
        exact absurd hn hin
      · have := noops_not_method _ _ _ _ h1
        cases this
      · unfold registrations at h1
        simp only at h1
        rcases List.mem_append.1 h1 with h1 | h1
        · obtain ⟨⟨x, h', e'⟩, hx, he⟩ := List.mem_map.1 h1
          simp only [Reg.mk.injEq, Cb.method.injEq, true_and] at he
          obtain ⟨rfl, rfl⟩ := he
          obtain ⟨hm, hc⟩ := (mem_plugin_wants (ps o) x h' e').1 (List.mem_filter.1 hx).1
          exact ⟨x, hm, rfl, e', hc⟩
        · split at h1
          · simp at h1
          · cases h1
    · rintro ⟨x, hx, rfl, e', hc⟩
      right
      have he := (mem_plugin_wants (ps o) x h e').2 ⟨hx, hc⟩
      unfold registrations at hun ⊢
      simp only [List.map_eq_nil_iff, List.filter_eq_nil_iff] at hun ⊢
      have hk := hun _ he
      refine List.mem_append_left _ (List.mem_map.2 ⟨(x, h, e'), List.mem_filter.2 ⟨he, by simpa using hk⟩, rfl⟩)

/-- C76: what else is registered, if activating a plugin succeeds: something that does nothing, for each hook of slash no method of the plugin is to
be called by, if the plugin is marked to provide something (so that others can be ordered after it); and something that notes the start of the
session, for plugins that are only to be called at its end. -/
theorem C76_helpers (w : World) (ps : Objs) (r : Ref) (o : Nat) (s s' : St) (hf : find ps s r = some o)
    (hok : activate w ps r false s = (.ok, s')) :
    ∃ new, s'.regs = s.regs ++ new ∧ ∀ x : Reg, x.isMethod = false →
      (x ∈ new ↔
        (x = { hook := x.hook, token := some (ps o).name, cb := .noop o } ∧ (ps o).provides = true ∧ x.hook ∈ w.slash ∧
          (∀ m ∈ (ps o).methods, ∀ e, ¬ Calls m x.hook e) ∧
          (x.hook = sessionStart → ∀ m ∈ (ps o).methods, ∀ e, ¬ Calls m sessionEnd e)) ∨
        (x = { hook := sessionStart, token := none, cb := .toggle o } ∧ (∃ m ∈ (ps o).methods, ∃ e, Calls m sessionEnd e) ∧
          ∀ m ∈ (ps o).methods, ∀ e, ¬ Calls m sessionStart e)) := by
  rcases activate_cases w ps r false s with ⟨h', -⟩ | ⟨o', ho', ⟨h', -⟩ | ⟨-, -, e⟩ | ⟨-, hun, e⟩⟩
  · rw [hf] at h'; cases h'
  · cases h'
  · rw [e] at hok; cases hok
  · rw [hf] at ho'; cases ho'
    rw [e] at hok
    cases hok
    refine ⟨(registrations w (ps o) o).noops ++ (registrations w (ps o) o).regs, by simp [List.append_assoc], ?_⟩
    have hany : ∀ h, ((ps o).wants.filter (fun x => w.known x.2.1 x.2.2)).any (fun x => x.2.1 == h) = true ↔
        ∃ m ∈ (ps o).methods, ∃ e, Calls m h e := by
      intro h
      simp only [List.any_eq_true, List.mem_filter, beq_iff_eq]
      constructor
      · rintro ⟨⟨m, h', e'⟩, ⟨hx, -⟩, rfl⟩
        obtain ⟨hm, hc⟩ := (mem_plugin_wants (ps o) m h' e').1 hx
        exact ⟨m, hm, e', hc⟩
      · rintro ⟨m, hm, e', hc⟩
        have hx := (mem_plugin_wants (ps o) m h e').2 ⟨hm, hc⟩
        refine ⟨(m, h, e'), ⟨hx, ?_⟩, rfl⟩
        unfold registrations at hun
        simp only [List.map_eq_nil_iff, List.filter_eq_nil_iff] at hun
        simpa using hun _ hx
    have hno : ∀ h, (!((ps o).wants.filter (fun x => w.known x.2.1 x.2.2)).any (fun x => x.2.1 == h)) = true ↔
        ∀ m ∈ (ps o).methods, ∀ e, ¬ Calls m h e := by
      intro h
      rw [Bool.not_eq_true', ← Bool.not_eq_true, hany]
      constructor
      · intro hx m hm e' hc; exact hx ⟨m, hm, e', hc⟩
      · rintro hx ⟨m, hm, e', hc⟩; exact hx m hm e' hc
    intro x hx
    unfold registrations
    simp only [List.mem_append, List.mem_map, hno]
    constructor
    · rintro (⟨h, hh, rfl⟩ | ⟨y, hy, rfl⟩ | hh)
      · left
        split at hh
        · rename_i hp
          simp only [List.mem_filter, hno, Bool.not_eq_true', Bool.and_eq_false_iff, beq_eq_false_iff_ne] at hh
          obtain ⟨⟨h1, h2⟩, h3⟩ := hh
          refine ⟨rfl, hp, h1, h2, ?_⟩
          rintro rfl m hm e' hc
          rcases h3 with (h3 | h3) | h3
          · have := (hany sessionEnd).2 ⟨m, hm, e', hc⟩
            rw [h3] at this; cases this
          · have := (hno sessionStart).2 h2
            rw [this] at h3
            cases h3
          · exact h3 rfl
        · cases hh
      · cases hx
      · right
        split at hh
        · rename_i hb
          simp only [Bool.and_eq_true, hany, hno] at hb
          simp only [List.mem_singleton] at hh
          exact ⟨hh, hb.1, hb.2⟩
        · cases hh
    · rintro (⟨h0, hp, h1, h2, h3⟩ | ⟨rfl, h1, h2⟩)
      · left
        refine ⟨x.hook, ?_, h0.symm⟩
        rw [if_pos hp]
        simp only [List.mem_filter, hno, Bool.not_eq_true', Bool.and_eq_false_iff, beq_eq_false_iff_ne]
        refine ⟨⟨h1, h2⟩, ?_⟩
        by_cases hs : x.hook = sessionStart
        · left; left
          rw [← Bool.not_eq_true, hany]
          rintro ⟨m, hm, e', hc⟩
          exact h3 hs m hm e' hc
        · exact .inr hs
      · right; right
        rw [if_pos]
        · simp
        · rw [Bool.and_eq_true, hany, hno]
          exact ⟨h1, h2⟩

example :
    let p : Plugin := { name := ['p'], provides := true, methods := [{ name := "session_end".toList }] }
    (run { exWorld with slash := ["slash.session_end".toList, "slash.session_start".toList, "slash.h".toList], known := fun _ _ => true }
      (fun _ => p) [.install 0 true false false false false] {}).regs.map (fun r => (r.hook, r.cb)) =
      [("slash.h".toList, .noop 0), ("slash.session_end".toList, .method 0 "session_end".toList), ("slash.session_start".toList, .toggle 0)] := by
  decide +kernel

/-- a plugin with a hook, a helper, a method for two hooks and one whose condition does not hold -/
example :
    let p : Plugin := { name := ['p'], methods := [{ name := ['h'] }, { name := ['_', 'x'] },
      { name := ['_', 'y'], registerOn := some [⟨some ['g', '1'], false⟩, ⟨none, false⟩, ⟨some ['g', '2'], false⟩] },
      { name := ['z'], registerIf := false }] }
    (run exWorld (fun _ => p) [.install 0 true false false false false] {}).regs.map (fun r => (r.hook, r.cb)) =
      [("slash.h".toList, .method 0 ['h']), (['g', '1'], .method 0 ['_', 'y']), (['g', '2'], .method 0 ['_', 'y'])] := by decide +kernel


/-! ## C77 -/

/-- names that are the same on the command line are the same -/
def NoClashOn (P : Str → Prop) : Prop := ∀ n m, P n → P m → norm n = norm m → n = m

theorem install_plain (w : World) (ps : Objs) (o : Nat) (s : St) :
    (install w ps o false false false false false s).1 = .ok → (install w ps o false false false false false s).2 = enter (ps o).name o false s := by
  unfold install
  split
  · intro h; cases h
  · split
    · intro h; cases h
    · intro _; rfl

theorem reinstall_spec {w : World} {ps : Objs} (l : List (Str × Nat × Bool)) (s s' : St) (hw : WF ps s)
    (hk : ∀ x ∈ l, (ps x.2.1).name = x.1) (hd : (l.map (·.1)).Nodup) (hok : reinstall w ps l s = (.ok, s')) :
    WF ps s' ∧ s'.active = s.active ∧
    ∀ n, (n ∉ l.map (·.1) → dictGet n s'.installed = dictGet n s.installed) ∧
      ∀ o i, (n, o, i) ∈ l → dictGet n s'.installed = some (o, false) := by
  induction l generalizing s with
  | nil => cases hok; exact ⟨hw, rfl, fun n => ⟨fun _ => rfl, (fun _ _ h => by cases h)⟩⟩
  | cons x l ih =>
    simp only [List.map_cons, List.nodup_cons] at hd
    simp only [reinstall] at hok
    have hp := install_plain w ps x.2.1 s
    cases hi : install w ps x.2.1 false false false false false s with
    | mk r s1 =>
      rw [hi] at hok hp
      cases r with
      | ok =>
        simp only at hok
        have := hp rfl
        simp only at this
        subst this
        have hx := hk x (by simp)
        obtain ⟨a, b, c⟩ := ih _ (hw.enter x.2.1 false) (fun y hy => hk y (by simp [hy])) hd.2 hok
        refine ⟨a, b, fun n => ⟨?_, ?_⟩⟩
        · intro hn
          simp only [List.map_cons, List.mem_cons, not_or] at hn
          rw [(c n).1 hn.2]
          show dictGet n (dictSet _ _ _) = _
          rw [dictGet_set, hx, if_neg hn.1]
        · intro o i hm
          rcases List.mem_cons.1 hm with e | hm
          · subst e
            rw [(c n).1 hd.1]
            show dictGet n (dictSet _ _ _) = _
            rw [dictGet_set, hx, if_pos rfl]
          · exact (c n).2 o i hm
      | _ => cases hok

theorem reactivate_spec {w : World} {ps : Objs} (x : Str → Bool) (l : List Str) (s s' : St) (hw : WF ps s)
    (hr : ∀ n ∈ l, (dictGet n s.cmdline).getD n = n) (hok : reactivate w ps x l s = (.ok, s')) :
    WF ps s' ∧ s'.installed = s.installed ∧ s'.cmdline = s.cmdline ∧ ∀ n, n ∈ s'.active ↔ n ∈ s.active ∨ n ∈ l := by
  induction l generalizing s with
  | nil => cases hok; simp [hw]
  | cons n l ih =>
    simp only [reactivate] at hok
    have hw1 := hw.activate (w := w) (.name n) (x n)
    rcases activate_cases w ps (.name n) (x n) s with ⟨-, e⟩ | ⟨o, ho, ⟨-, e⟩ | ⟨-, -, e⟩ | ⟨-, -, e⟩⟩
    · rw [e] at hok; cases hok
    · rw [e] at hok; cases hok
    · rw [e] at hok; cases hok
    · rw [e] at hok hw1
      have hname : (ps o).name = n := (find_name hw _ _ ho).trans (hr n (by simp))
      obtain ⟨a, b, c, d⟩ := ih _ hw1 (fun m hm => hr m (by simp [hm])) hok
      refine ⟨a, b, c, fun m => ?_⟩
      rw [d]
      simp only
      rw [mem_setAdd, hname, List.mem_cons]
      constructor
      · rintro ((h | h) | h)
        · exact .inr (.inl h)
        · exact .inl h
        · exact .inr (.inr h)
      · rintro (h | h | h)
        · exact .inl (.inr h)
        · exact .inl (.inl h)
        · exact .inr h

theorem deactivateAll_spec {ps : Objs} (x : Str → Bool) (l : List Str) (s s' : St) (hw : WF ps s)
    (hr : ∀ n ∈ l, (dictGet n s.cmdline).getD n = n) (hok : deactivateAll ps x l s = (.ok, s')) :
    WF ps s' ∧ s'.installed = s.installed ∧ s'.cmdline = s.cmdline ∧ ∀ n, n ∈ s'.active ↔ n ∈ s.active ∧ n ∉ l := by
  induction l generalizing s with
  | nil => cases hok; simp [hw]
  | cons n l ih =>
    simp only [deactivateAll] at hok
    rcases deactivate_cases ps (.name n) (x n) s with ⟨-, e⟩ | ⟨o, ho, ⟨-, e⟩ | ⟨hm, e⟩⟩
    · rw [e] at hok; cases hok
    · have hname : (ps o).name = n := (find_name hw _ _ ho).trans (hr n (by simp))
      rw [e, hname] at hok
      cases hx : x n with
      | true => rw [hx] at hok; cases hok
      | false =>
        rw [hx] at hok
        simp only [Bool.false_eq_true, if_false] at hok
        obtain ⟨a, b, c, d⟩ := ih _ (hw.drop n) (fun m hm => hr m (by simp [hm])) hok
        refine ⟨a, b, c, fun m => ?_⟩
        rw [d]
        show m ∈ s.active.filter (fun m => !(m == n)) ∧ m ∉ l ↔ _
        rw [List.mem_filter]
        simp only [List.mem_cons, not_or, Bool.not_eq_true', beq_eq_false_iff_ne]
        exact ⟨fun ⟨⟨a, b⟩, c⟩ => ⟨a, b, c⟩, fun ⟨a, b, c⟩ => ⟨⟨a, b⟩, c⟩⟩
    · have hname : (ps o).name = n := (find_name hw _ _ ho).trans (hr n (by simp))
      rw [e] at hok
      obtain ⟨a, b, c, d⟩ := ih _ hw (fun m hm => hr m (by simp [hm])) hok
      refine ⟨a, b, c, fun m => ?_⟩
      rw [d]
      simp only [List.mem_cons, not_or]
      rw [hname] at hm
      exact ⟨fun ⟨a, b⟩ => ⟨a, fun e => hm (e ▸ a), b⟩, fun ⟨a, _, b⟩ => ⟨a, b⟩⟩

theorem uninstallAll_spec {ps : Objs} (x : Str → Bool) (l : List Str) (s s' : St) (hw : WF ps s)
    (hin : ∀ n ∈ l, (dictGet n s.installed).isSome = true) (hd : l.Nodup)
    (hc : NoClashOn (fun n => (dictGet n s.installed).isSome = true)) (hna : ∀ n ∈ l, n ∉ s.active)
    (hok : uninstallAll ps x l s = (.ok, s')) :
    s'.active = s.active ∧ ∀ n, dictGet n s'.installed = if n ∈ l then none else dictGet n s.installed := by
  induction l generalizing s with
  | nil => cases hok; simp
  | cons n l ih =>
    rw [List.nodup_cons] at hd
    simp only [uninstallAll] at hok
    have hres := hw.resolve hc n (hin n (by simp))
    rcases uninstall_cases ps (.name n) (x n) s with ⟨-, e⟩ | ⟨o, ho, h⟩
    · cases hu : Plug.uninstall ps (.name n) (x n) s with
      | mk r s1 => rw [hu] at e hok; simp only at e; subst e; cases hok
    · have hname : (ps o).name = n := (find_name hw _ _ ho).trans hres
      rw [hname] at h
      rcases h with ⟨hm, -⟩ | ⟨hm, -⟩ | ⟨hm, e⟩
      · exact absurd hm (hna n (by simp))
      · exact absurd hm (hna n (by simp))
      · rw [e] at hok
        have hget : ∀ m, dictGet m (remove n s).installed = if m = n then none else dictGet m s.installed := fun m => dictGet_pop m n _
        obtain ⟨a, b⟩ := ih _ (hw.remove n hm) (fun m hm' => by
            rw [hget, if_neg (fun e : m = n => hd.1 (e ▸ hm'))]
            exact hin m (by simp [hm'])) hd.2 (fun m k hm hk => by
            simp only [hget] at hm hk
            refine hc m k ?_ ?_
            · split at hm
              · cases hm
              · exact hm
            · split at hk
              · cases hk
              · exact hk) (fun m hm' => hna m (by simp [hm'])) hok
        refine ⟨a, fun m => ?_⟩
        rw [b, hget]
        simp only [List.mem_cons]
        by_cases h1 : m ∈ l
        · simp [h1]
        · by_cases h2 : m = n
          · simp [h2]
          · simp [h1, h2]

theorem run_dist (w : World) (ps : Objs) (ops : List Op) (s : St) (h : (s.installed.map (·.1)).Nodup) :
    ((run w ps ops s).installed.map (·.1)).Nodup := by
  have hact : ∀ r x s, (activate w ps r x s).2.installed = s.installed := by
    intro r x s
    rcases activate_cases w ps r x s with ⟨-, e⟩ | ⟨o, -, ⟨-, e⟩ | ⟨-, -, e⟩ | ⟨-, -, e⟩⟩ <;> rw [e]
  have hde : ∀ r x s, (deactivate ps r x s).2.installed = s.installed := by
    intro r x s
    rcases deactivate_cases ps r x s with ⟨-, e⟩ | ⟨o, -, ⟨-, e⟩ | ⟨-, e⟩⟩ <;> rw [e] <;> rfl
  have hun : ∀ r x s, (s.installed.map (·.1)).Nodup → ((uninstall ps r x s).2.installed.map (·.1)).Nodup := by
    intro r x s h
    rcases uninstall_cases ps r x s with ⟨e, -⟩ | ⟨o, -, ⟨-, -, e⟩ | ⟨-, -, e⟩ | ⟨-, e⟩⟩ <;> rw [e]
    · exact h
    · exact h
    · exact (List.filter_sublist.map _).nodup h
    · exact (List.filter_sublist.map _).nodup h
  have hla : ∀ r s, (activateLater ps r s).2.installed = s.installed ∧ (deactivateLater ps r s).2.installed = s.installed := by
    intro r s
    unfold activateLater deactivateLater
    cases find ps s r <;> exact ⟨rfl, rfl⟩
  have hpa : ∀ x l s, (pendingActivations w ps x l s).2.installed = s.installed := by
    intro x l
    induction l with
    | nil => intro s; rfl
    | cons n l ih =>
      intro s
      simp only [pendingActivations]
      split
      · exact ih _
      · have := hact (.name n) (x n) { s with pendAct := s.pendAct.filter (fun m => !(m == n)) }
        generalize activate w ps (.name n) (x n) { s with pendAct := s.pendAct.filter (fun m => !(m == n)) } = R at this ⊢
        obtain ⟨r, s1⟩ := R
        cases r <;> first | exact (ih s1).trans this | exact this
  have hpd : ∀ x l s, (pendingDeactivations ps x l s).2.installed = s.installed := by
    intro x l
    induction l with
    | nil => intro s; rfl
    | cons n l ih =>
      intro s
      simp only [pendingDeactivations]
      split
      · have := hde (.name n) (x n) { s with pendDeact := s.pendDeact.filter (fun m => !(m == n)) }
        generalize deactivate ps (.name n) (x n) { s with pendDeact := s.pendDeact.filter (fun m => !(m == n)) } = R at this ⊢
        obtain ⟨r, s1⟩ := R
        cases r <;> first | exact (ih s1).trans this | exact this
      · exact ih _
  induction ops generalizing s with
  | nil => exact h
  | cons op ops ih =>
    refine ih _ ?_
    cases op with
    | uninstall r x => exact hun r x s h
    | activate r x => exact (hact r x s).symm ▸ h
    | deactivate r x => exact (hde r x s).symm ▸ h
    | activateLater r => exact (hla r s).1.symm ▸ h
    | deactivateLater r => exact (hla r s).2.symm ▸ h
    | activatePending a d oA oD =>
      show ((activatePending w ps a d oA oD s).2.installed.map (·.1)).Nodup
      have : (activatePending w ps a d oA oD s).2.installed = s.installed := by
        unfold activatePending
        have h1 := hpa a oA s
        generalize pendingActivations w ps a oA s = R at h1 ⊢
        obtain ⟨r, s1⟩ := R
        cases r <;> first | exact (hpd d oD s1).trans h1 | exact h1
      rw [this]; exact h
    | install o a l i x d =>
      show ((install w ps o a l i x d s).2.installed.map (·.1)).Nodup
      unfold install
      split
      · exact h
      split
      · exact h
      simp only
      have h1 : (({ s with
          installed := dictSet (ps o).name (o, i) s.installed
          cmdline := dictSet (norm (ps o).name) (ps o).name s.cmdline } : St).installed.map (·.1)).Nodup := (keys_dictSet _ _ _ h).1
      generalize ({ s with
          installed := dictSet (ps o).name (o, i) s.installed
          cmdline := dictSet (norm (ps o).name) (ps o).name s.cmdline } : St) = s1 at h1 ⊢
      have h2 : ∀ R : Res × St, (R.2.installed.map (fun x : Str × Nat × Bool => x.1)).Nodup → (St.installed (Prod.snd (match R with
          | (.ok, s) => if l then activateLater ps (.name (ps o).name) s else (.ok, s)
          | x => x)) |>.map (fun x : Str × Nat × Bool => x.1)).Nodup := by
        intro R hR
        obtain ⟨r, s2⟩ := R
        cases r <;> simp only
        · cases l
          · exact hR
          · rw [if_pos rfl, (hla _ s2).1]; exact hR
        all_goals exact hR
      apply h2
      cases a with
      | false => exact h1
      | true =>
        have h3 := hact (.name (ps o).name) x s1
        rw [if_pos rfl]
        generalize activate w ps (.name (ps o).name) x s1 = R at h3 ⊢
        obtain ⟨r, s2⟩ := R
        simp only at h3
        cases r <;> simp only <;> try (rw [h3]; exact h1)
        have h4 := hun (.obj o) d s2 (by rw [h3]; exact h1)
        generalize uninstall ps (.obj o) d s2 = R at h4 ⊢
        obtain ⟨r, s3⟩ := R
        cases r <;> exact h4

/-- C77, the part that holds (names differ on the command line, too, and leaving the context succeeds): after the context that restores plugins,
whatever was done in it, the plugins with the same names as before are installed and active, and those that were uninstalled in it are the same
objects as before. -/
theorem C77_restored_partial (w : World) (ps : Objs) (before inside : List Op) (raisesA raisesD : Str → Bool) (s' : St)
    (hc : NoClashOn (fun n => (dictGet n (run w ps before {}).installed).isSome = true ∨
      (dictGet n (run w ps inside (run w ps before {})).installed).isSome = true))
    (hok : restore w ps raisesA raisesD (run w ps before {}) (run w ps inside (run w ps before {})) = (.ok, s')) :
    (∀ n, (dictGet n s'.installed).isSome = (dictGet n (run w ps before {}).installed).isSome) ∧
    (∀ n, n ∈ s'.active ↔ n ∈ (run w ps before {}).active) ∧
    ∀ n, dictGet n (run w ps inside (run w ps before {})).installed = none →
      (dictGet n s'.installed).map (·.1) = (dictGet n (run w ps before {}).installed).map (·.1) := by
  have hw0 := (WF.empty ps).run (w := w) before
  have hd0 := run_dist w ps before {} List.nodup_nil
  generalize run w ps before {} = s0 at hc hok hw0 hd0
  have hw1 := hw0.run (w := w) inside
  have hd1 := run_dist w ps inside s0 hd0
  generalize run w ps inside s0 = s1 at hc hok hw1 hd1
  unfold restore at hok
  cases h1 : reinstall w ps (s0.installed.filter (fun x => (dictGet x.1 s1.installed).isNone)) s1 with
  | mk r s2 =>
  rw [h1] at hok
  cases r <;> simp only at hok <;> try (cases hok; done)
  obtain ⟨hw2, ha2, hi2⟩ := reinstall_spec _ s1 s2 hw1 (fun x hx => hw0.key x (List.mem_filter.1 hx).1)
    ((List.filter_sublist.map _).nodup hd0) h1
  -- what is installed now
  have hget0 : ∀ (n : Str) (o : Nat) (i : Bool), (n, o, i) ∈ s0.installed ↔ dictGet n s0.installed = some (o, i) := by
    intro n o i
    refine ⟨fun h => ?_, fun h => dictGet_mem _ _ _ h⟩
    have hs := dictGet_isSome _ _ h
    rw [Option.isSome_iff_exists] at hs
    obtain ⟨y, hy⟩ := hs
    have := inj_on_of_nodup_map hd0 h (dictGet_mem _ _ _ hy) rfl
    cases this
    exact hy
  have hinst2 : ∀ n, dictGet n s2.installed = match dictGet n s1.installed with
      | some x => some x
      | none => (dictGet n s0.installed).map (fun x => (x.1, false)) := by
    intro n
    cases hn1 : dictGet n s1.installed with
    | some x =>
      rw [(hi2 n).1 ?_, hn1]
      intro hm
      obtain ⟨y, hy, e⟩ := List.mem_map.1 hm
      subst e
      have := (List.mem_filter.1 hy).2
      rw [hn1] at this
      cases this
    | none =>
      cases hn0 : dictGet n s0.installed with
      | some x =>
        rw [(hi2 n).2 x.1 x.2 (List.mem_filter.2 ⟨(hget0 n x.1 x.2).2 hn0, by simp [hn1]⟩)]
        rfl
      | none =>
        rw [(hi2 n).1 ?_, hn1]
        · rfl
        · intro hm
          obtain ⟨y, hy, e⟩ := List.mem_map.1 hm
          subst e
          have := dictGet_isSome _ _ (List.mem_filter.1 hy).1
          rw [hn0] at this
          cases this
  have hsome2 : ∀ n, (dictGet n s2.installed).isSome = true ↔
      (dictGet n s0.installed).isSome = true ∨ (dictGet n s1.installed).isSome = true := by
    intro n
    rw [hinst2]
    cases dictGet n s1.installed <;> cases dictGet n s0.installed <;> simp
  have hc2 : NoClash s2 := by
    intro n m hn hm
    exact hc n m ((hsome2 n).1 hn) ((hsome2 m).1 hm)
  cases h2 : reactivate w ps raisesA (s0.active.filter (fun n => !(s2.active.contains n))) s2 with
  | mk r s3 =>
  rw [h2] at hok
  cases r <;> simp only at hok <;> try (cases hok; done)
  obtain ⟨hw3, hi3, hcm3, ha3⟩ := reactivate_spec raisesA _ s2 s3 hw2 (fun n hn =>
    hw2.resolve hc2 n ((hsome2 n).2 (.inl (hw0.act n (List.mem_filter.1 hn).1)))) h2
  cases h3 : deactivateAll ps raisesD (s3.active.filter (fun n => !(s0.active.contains n))) s3 with
  | mk r s4 =>
  rw [h3] at hok
  cases r <;> simp only at hok <;> try (cases hok; done)
  obtain ⟨hw4, hi4, hcm4, ha4⟩ := deactivateAll_spec raisesD _ s3 s4 hw3 (fun n hn => by
    rw [hcm3]
    exact hw2.resolve hc2 n (by rw [← hi3]; exact hw3.act n (List.mem_filter.1 hn).1)) h3
  have hactive4 : ∀ n, n ∈ s4.active ↔ n ∈ s0.active := by
    intro n
    rw [ha4, ha3, List.mem_filter, List.mem_filter]
    simp only [Bool.not_eq_true', List.contains_eq_mem, decide_eq_false_iff_not, not_and, Classical.not_not]
    constructor
    · rintro ⟨h | ⟨h, -⟩, h'⟩
      · exact h' ((ha3 n).2 (.inl h))
      · exact h
    · intro h
      refine ⟨?_, fun _ => h⟩
      by_cases hm : n ∈ s2.active
      · exact .inl hm
      · exact .inr ⟨h, hm⟩
  have hd4 : (s4.installed.map (·.1)).Nodup := by
    rw [hi4, hi3]
    have : ∀ (l : List (Str × Nat × Bool)) (s s' : St), (s.installed.map (·.1)).Nodup → reinstall w ps l s = (.ok, s') →
        (s'.installed.map (·.1)).Nodup := by
      intro l
      induction l with
      | nil => intro s s' h e; cases e; exact h
      | cons x l ih =>
        intro s s' h e
        simp only [reinstall] at e
        have hp := install_plain w ps x.2.1 s
        cases hi : install w ps x.2.1 false false false false false s with
        | mk r s5 =>
          rw [hi] at e hp
          cases r with
          | ok =>
            have := hp rfl
            simp only at this
            subst this
            exact ih _ _ (keys_dictSet _ _ _ h).1 e
          | _ => cases e
    exact this _ s1 s2 hd1 h1
  have hi42 : s4.installed = s2.installed := hi4.trans hi3
  obtain ⟨ha5, hi5⟩ := uninstallAll_spec raisesD _ s4 s' hw4
    (fun n hn => by
      obtain ⟨x, hx, rfl⟩ := List.mem_map.1 hn
      exact dictGet_isSome _ _ (List.mem_filter.1 hx).1)
    ((List.filter_sublist.map _).nodup hd4)
    (fun n m hn hm => by
      rw [hi42] at hn hm
      exact hc2 n m hn hm)
    (fun n hn => by
      obtain ⟨x, hx, rfl⟩ := List.mem_map.1 hn
      rw [hactive4]
      intro hm
      have h5 := hw0.act _ hm
      have h6 := (List.mem_filter.1 hx).2
      rw [Option.isNone_iff_eq_none] at h6
      rw [h6] at h5
      cases h5) hok
  have hmem : ∀ n, n ∈ (s4.installed.filter (fun x => (dictGet x.1 s0.installed).isNone)).map (·.1) ↔
      (dictGet n s4.installed).isSome = true ∧ dictGet n s0.installed = none := by
    intro n
    constructor
    · intro hn
      obtain ⟨x, hx, rfl⟩ := List.mem_map.1 hn
      obtain ⟨h5, h6⟩ := List.mem_filter.1 hx
      exact ⟨dictGet_isSome _ _ h5, by simpa using h6⟩
    · rintro ⟨h5, h6⟩
      rw [Option.isSome_iff_exists] at h5
      obtain ⟨x, hx⟩ := h5
      exact List.mem_map.2 ⟨(n, x), List.mem_filter.2 ⟨dictGet_mem _ _ _ hx, by simp [h6]⟩, rfl⟩
  refine ⟨?_, ?_, ?_⟩
  · intro n
    rw [hi5]
    by_cases hn0 : (dictGet n s0.installed).isSome = true
    · have hne : dictGet n s0.installed ≠ none := by
        intro e; rw [e] at hn0; cases hn0
      rw [if_neg (fun h => hne ((hmem n).1 h).2), hn0, hi42]
      exact (hsome2 n).2 (.inl hn0)
    · have he : dictGet n s0.installed = none := by
        cases h : dictGet n s0.installed with
        | none => rfl
        | some x => rw [h] at hn0; exact absurd rfl hn0
      rw [he]
      split
      · rfl
      · rename_i hnm
        cases h : dictGet n s4.installed with
        | none => rfl
        | some x => exact absurd ((hmem n).2 ⟨by rw [h]; rfl, he⟩) hnm
  · intro n
    rw [ha5, hactive4]
  · intro n hn1
    rw [hi5]
    split
    · rename_i hm
      rw [((hmem n).1 hm).2]
    · rw [hi42, hinst2, hn1]
      simp only
      cases dictGet n s0.installed <;> rfl

/-- `a` is active, `b` is installed; in the context `a` is uninstalled, `b` activated, and `c` installed and activated -/
example :
    let s0 := run exWorld exObjs [.install 0 true false false false false, .install 1 false false false false false] {}
    let s1 := run exWorld exObjs [.uninstall (.obj 0) false, .activate (.obj 1) false, .install 2 true false false false false] s0
    s1.active = [['b'], ['c']] ∧
    (restore exWorld exObjs (fun _ => false) (fun _ => false) s0 s1).1 = .ok ∧
    (restore exWorld exObjs (fun _ => false) (fun _ => false) s0 s1).2.active = [['a']] ∧
    (restore exWorld exObjs (fun _ => false) (fun _ => false) s0 s1).2.installed = [(['b'], 1, false), (['a'], 0, false)] := by decide +kernel

/-- C77 fails for plugins replaced in the context: the new object stays installed. -/
theorem C77_replaced_violated :
    let ps : Objs := fun _ => exPlugin
    let s0 := run exWorld ps [.install 0 false false false false false] {}
    let s1 := run exWorld ps [.install 1 false false false false false] s0
    (restore exWorld ps (fun _ => false) (fun _ => false) s0 s1) = (.ok, s1) ∧ s0.installed = [(['a'], 0, false)] ∧
      s1.installed = [(['a'], 1, false)] := by decide +kernel

/-- C77 fails for internal plugins: one that was uninstalled in the context is not internal any more. -/
theorem C77_internal_violated :
    let s0 := run exWorld exObjs [.install 0 false false true false false] {}
    let s1 := run exWorld exObjs [.uninstall (.obj 0) false] s0
    s0.installed = [(['a'], 0, true)] ∧ (restore exWorld exObjs (fun _ => false) (fun _ => false) s0 s1).2.installed = [(['a'], 0, false)] := by
  decide +kernel

/-- C77 fails for what is pending: requests made in the context stay. -/
theorem C77_pending_violated :
    let s0 := run exWorld exObjs [.install 0 false false true false false] {}
    let s1 := run exWorld exObjs [.activateLater (.obj 0)] s0
    s0.pendAct = [] ∧ (restore exWorld exObjs (fun _ => false) (fun _ => false) s0 s1).2.pendAct = [['a']] := by
  decide +kernel

end Slash.Plug
