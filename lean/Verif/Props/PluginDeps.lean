import Verif.Model.PluginDeps
import Verif.Props.Plugins
/-!
# C177: what plugins need is called after what provides it
-/
namespace Slash.Plug

/-! ## Orders as gossip makes them -/

theorem before_iff (N P : Reg → List Str) (q r : Reg) : before N P q r = true ↔ ∃ x ∈ P q, x ∈ N r := by
  simp [before]

theorem sortDeps_perm (N P : Reg → List Str) (n : Nat) (l l' : List Reg) (h : sortDeps N P n l = some l') : l'.Perm l := by
  induction n generalizing l l' with
  | zero =>
    simp only [sortDeps] at h
    split at h
    · cases h; rename_i he; rw [List.isEmpty_iff.1 he]
    · cases h
  | succ n ih =>
    simp only [sortDeps] at h
    split at h
    · cases h; rename_i he; rw [List.isEmpty_iff.1 he]
    · split at h
      · cases h
      · rename_i r hr
        obtain ⟨t, ht, rfl⟩ := Option.map_eq_some_iff.1 h
        exact ((ih _ _ ht).cons r).trans (List.perm_cons_erase (List.mem_of_find?_eq_some hr)).symm

theorem sortDeps_after (N P : Reg → List Str) (n : Nat) (l a b : List Reg) (r : Reg) (h : sortDeps N P n l = some (a ++ r :: b))
    (q : Reg) (hq : q ∈ b) (x : Str) (hx : x ∈ N r) : x ∉ P q := by
  induction n generalizing l a with
  | zero =>
    simp only [sortDeps] at h
    split at h
    · simp at h
    · cases h
  | succ n ih =>
    simp only [sortDeps] at h
    split at h
    · simp at h
    · split at h
      · cases h
      · rename_i r' hr'
        obtain ⟨t, ht, e⟩ := Option.map_eq_some_iff.1 h
        cases a with
        | nil =>
          simp only [List.nil_append, List.cons.injEq] at e
          obtain ⟨rfl, rfl⟩ := e
          have hmem : q ∈ l := List.mem_of_mem_erase ((sortDeps_perm N P n _ _ ht).mem_iff.1 hq)
          have := List.find?_some hr'
          rw [List.all_eq_true] at this
          have := this q hmem
          intro hp
          rw [(before_iff N P q r').2 ⟨x, hp, hx⟩] at this
          cases this
        | cons c a =>
          simp only [List.cons_append, List.cons.injEq] at e
          exact ih _ a (by rw [ht, e.2])

theorem exists_min_rank (rank : Reg → Nat) (l : List Reg) (h : l ≠ []) : ∃ r ∈ l, ∀ q ∈ l, rank r ≤ rank q := by
  induction l with
  | nil => exact absurd rfl h
  | cons a l ih =>
    by_cases hl : l = []
    · subst hl; exact ⟨a, by simp, by simp⟩
    · obtain ⟨r, hr, hmin⟩ := ih hl
      by_cases hle : rank a ≤ rank r
      · refine ⟨a, by simp, ?_⟩
        intro q hq
        rcases List.mem_cons.1 hq with rfl | hq
        · exact Nat.le_refl _
        · exact Nat.le_trans hle (hmin q hq)
      · refine ⟨r, by simp [hr], ?_⟩
        intro q hq
        rcases List.mem_cons.1 hq with rfl | hq
        · omega
        · exact hmin q hq

theorem sortDeps_some (N P : Reg → List Str) (rank : Reg → Nat) (n : Nat) (l : List Reg) (hn : l.length ≤ n)
    (h : ∀ q ∈ l, ∀ r ∈ l, ∀ x ∈ P q, x ∈ N r → rank q < rank r) : (sortDeps N P n l).isSome = true := by
  induction n generalizing l with
  | zero =>
    have : l = [] := List.length_eq_zero_iff.1 (by omega)
    subst this; rfl
  | succ n ih =>
    simp only [sortDeps]
    split
    · rfl
    · rename_i he
      have hne : l ≠ [] := fun e => he (by rw [e]; rfl)
      obtain ⟨r, hr, hmin⟩ := exists_min_rank rank l hne
      have hok : l.all (fun q => !(before N P q r)) = true := by
        rw [List.all_eq_true]
        intro q hq
        cases hb : before N P q r with
        | false => rfl
        | true =>
          obtain ⟨x, hx, hx'⟩ := (before_iff N P q r).1 hb
          have := h q hq r hr x hx hx'
          have := hmin q hq
          omega
      split
      · rename_i hf
        exact absurd hok (by simpa using List.find?_eq_none.1 hf r hr)
      · rename_i r' hf
        have hr' := List.mem_of_find?_eq_some hf
        rw [Option.isSome_map]
        apply ih
        · rw [List.length_erase_of_mem hr']; omega
        · intro q hq r hr
          exact h q (List.mem_of_mem_erase hq) r (List.mem_of_mem_erase hr)

theorem allMet_iff (N P : Reg → List Str) (l : List Reg) :
    l.all (fun r => (N r).all (fun x => l.any (fun q => (P q).contains x))) = true ↔ ∀ r ∈ l, ∀ x ∈ N r, ∃ q ∈ l, x ∈ P q := by
  simp

/-- What is assumed of gossip can be had: the order made by taking, again and again, a registration none of the others has to precede. -/
theorem resolve_orders (N P : Reg → List Str) : Orders N P (resolve N P) := by
  constructor
  · intro l l' h
    unfold resolve at h
    split at h
    · exact sortDeps_perm N P _ _ _ h
    · cases h
  · intro l a r b h q hq x hx
    unfold resolve at h
    split at h
    · exact sortDeps_after N P _ _ _ _ _ h q hq x hx
    · cases h
  · intro l l' h
    unfold resolve at h
    split at h
    · rename_i hm; exact (allMet_iff N P l).1 hm
    · cases h
  · intro l hm ⟨rank, hr⟩
    unfold resolve
    rw [if_pos ((allMet_iff N P l).2 hm)]
    exact sortDeps_some N P rank _ l (Nat.le_refl _) hr

/-! ## What is registered for active plugins -/

/-- No plugin is installed over another active one of the same name. -/
def Keeps (ps : Objs) (s : St) : Op → Prop
  | .install o _ _ _ _ _ => (ps o).name ∈ s.active → (dictGet (ps o).name s.installed).map (·.1) = some o
  | _ => True

/-- All operations of a history are as `Keeps` says. -/
def AllKeep (w : World) (ps : Objs) : List Op → St → Prop
  | [], _ => True
  | op :: ops, s => Keeps ps s op ∧ AllKeep w ps ops (op.run w ps s).2

/-- all that active plugins ask for is registered -/
structure Has (w : World) (ps : Objs) (s : St) : Prop where
  wf : WF ps s
  dist : (s.installed.map (·.1)).Nodup
  has : ∀ n ∈ s.active, ∀ o i, dictGet n s.installed = some (o, i) →
    ∀ q, q ∈ (registrations w (ps o) o).noops ∨ q ∈ (registrations w (ps o) o).regs → q ∈ s.regs

theorem regs_tokens (w : World) (p : Plugin) (o : Nat) (q : Reg)
    (h : q ∈ (registrations w p o).noops ∨ q ∈ (registrations w p o).regs) : q.token = some p.name ∨ q.token = none := by
  unfold registrations at h
  simp only at h
  rcases h with h | h
  · obtain ⟨x, -, rfl⟩ := List.mem_map.1 h; exact .inl rfl
  · rcases List.mem_append.1 h with h | h
    · obtain ⟨x, -, rfl⟩ := List.mem_map.1 h; exact .inl rfl
    · split at h
      · rw [List.mem_singleton] at h; subst h; exact .inr rfl
      · cases h

theorem Has.activate {w : World} {ps : Objs} {s : St} (h : Has w ps s) (r : Ref) (x : Bool) : Has w ps (Plug.activate w ps r x s).2 := by
  refine ⟨h.wf.activate r x, ?_, ?_⟩
  · rcases activate_cases w ps r x s with ⟨-, e⟩ | ⟨o, -, ⟨-, e⟩ | ⟨-, -, e⟩ | ⟨-, -, e⟩⟩ <;> rw [e] <;> exact h.dist
  · rcases activate_cases w ps r x s with ⟨-, e⟩ | ⟨o, hfo, ⟨-, e⟩ | ⟨-, -, e⟩ | ⟨-, -, e⟩⟩
    · rw [e]; exact h.has
    · rw [e]; exact h.has
    · rw [e]
      intro n hn o' i ho' q hq
      exact List.mem_append_left _ (h.has n hn o' i ho' q hq)
    · rw [e]
      intro n hn o' i ho' q hq
      rcases (mem_setAdd _ _ _).1 hn with rfl | hn'
      · obtain ⟨i', hi'⟩ := find_get h.wf r o hfo h.dist
        have : some (o, i') = some (o', i) := hi'.symm.trans ho'
        cases this
        show q ∈ s.regs ++ _ ++ _
        rcases hq with hq | hq
        · exact List.mem_append_left _ (List.mem_append_right _ hq)
        · exact List.mem_append_right _ hq
      · exact List.mem_append_left _ (List.mem_append_left _ (h.has n hn' o' i ho' q hq))

theorem Has.drop {w : World} {ps : Objs} {s : St} (h : Has w ps s) (n : Str) : Has w ps (drop n s) := by
  refine ⟨h.wf.drop n, h.dist, ?_⟩
  intro m hm o i ho q hq
  obtain ⟨h1, h2⟩ := List.mem_filter.1 hm
  refine List.mem_filter.2 ⟨h.has m h1 o i ho q hq, ?_⟩
  have hne : m ≠ n := by simpa using h2
  have hk : (ps o).name = m := h.wf.key _ (dictGet_mem _ _ _ ho)
  rcases regs_tokens _ _ _ _ hq with e | e
  · rw [e, hk]; simp [hne]
  · rw [e]; rfl

theorem Has.deactivate {w : World} {ps : Objs} {s : St} (h : Has w ps s) (r : Ref) (x : Bool) :
    Has w ps (Plug.deactivate ps r x s).2 := by
  rcases deactivate_cases ps r x s with ⟨-, e⟩ | ⟨o, -, ⟨-, e⟩ | ⟨-, e⟩⟩
  · rw [e]; exact h
  · rw [e]; exact h.drop _
  · rw [e]; exact h

theorem Has.remove {w : World} {ps : Objs} {s : St} (h : Has w ps s) (n : Str) (hn : n ∉ s.active) : Has w ps (remove n s) := by
  refine ⟨h.wf.remove n hn, ?_, ?_⟩
  · exact (List.filter_sublist.map _).nodup h.dist
  · intro m hm o i ho
    have ho : dictGet m (dictPop n s.installed) = some (o, i) := ho
    rw [dictGet_pop, if_neg (fun e : m = n => hn (e ▸ hm))] at ho
    exact h.has m hm o i ho

theorem Has.uninstall {w : World} {ps : Objs} {s : St} (h : Has w ps s) (r : Ref) (x : Bool) : Has w ps (Plug.uninstall ps r x s).2 := by
  rcases uninstall_cases ps r x s with ⟨e, -⟩ | ⟨o, -, ⟨-, -, e⟩ | ⟨-, -, e⟩ | ⟨hm, e⟩⟩
  · rw [e]; exact h
  · rw [e]; exact h.drop _
  · rw [e]; exact (h.drop _).remove _ (not_mem_drop _ _)
  · rw [e]; exact h.remove _ hm

theorem Has.pend {w : World} {ps : Objs} {s : St} (h : Has w ps s) (a d : List Str) : Has w ps { s with pendAct := a, pendDeact := d } :=
  ⟨h.wf.pend a d, h.dist, h.has⟩

theorem Has.later {w : World} {ps : Objs} {s : St} (h : Has w ps s) (r : Ref) :
    Has w ps (activateLater ps r s).2 ∧ Has w ps (deactivateLater ps r s).2 := by
  unfold activateLater deactivateLater
  cases find ps s r with
  | none => exact ⟨h, h⟩
  | some o => exact ⟨h.pend _ _, h.pend _ _⟩

theorem Has.enter {w : World} {ps : Objs} {s : St} (h : Has w ps s) (o : Nat) (i : Bool)
    (hn : (ps o).name ∈ s.active → (dictGet (ps o).name s.installed).map (·.1) = some o) :
    Has w ps (enter (ps o).name o i s) := by
  refine ⟨h.wf.enter o i, (keys_dictSet _ _ _ h.dist).1, ?_⟩
  intro m hm o' i' ho
  have ho : dictGet m (dictSet (ps o).name (o, i) s.installed) = some (o', i') := ho
  rw [dictGet_set] at ho
  by_cases e : m = (ps o).name
  · rw [if_pos e] at ho
    cases ho
    subst e
    obtain ⟨y, hy, he⟩ := Option.map_eq_some_iff.1 (hn hm)
    obtain ⟨o', j⟩ := y
    cases he
    exact h.has _ hm _ j hy
  · rw [if_neg e] at ho
    exact h.has m hm o' i' ho

theorem Has.install {w : World} {ps : Objs} {s : St} (h : Has w ps s) (o : Nat) (a l i x d : Bool)
    (hn : (ps o).name ∈ s.active → (dictGet (ps o).name s.installed).map (·.1) = some o) :
    Has w ps (Plug.install w ps o a l i x d s).2 := by
  unfold Plug.install
  split
  · exact h
  split
  · exact h
  simp only
  have h1 : Has w ps { s with
      installed := dictSet (ps o).name (o, i) s.installed
      cmdline := dictSet (norm (ps o).name) (ps o).name s.cmdline } := h.enter o i hn
  generalize ({ s with
      installed := dictSet (ps o).name (o, i) s.installed
      cmdline := dictSet (norm (ps o).name) (ps o).name s.cmdline } : St) = s1 at h1 ⊢
  have h2 : ∀ R : Res × St, Has w ps R.2 → Has w ps (match R with
      | (.ok, s) => if l then activateLater ps (.name (ps o).name) s else (.ok, s)
      | x => x).2 := by
    intro R hR
    obtain ⟨r, s2⟩ := R
    cases r <;> simp only
    · cases l
      · exact hR
      · exact (Has.later hR _).1
    all_goals exact hR
  apply h2
  cases a with
  | false => exact h1
  | true =>
    have h3 := h1.activate (.name (ps o).name) x
    rw [if_pos rfl]
    generalize Plug.activate w ps (.name (ps o).name) x s1 = R at h3 ⊢
    obtain ⟨r, s2⟩ := R
    cases r <;> try exact h3
    have h4 := Has.uninstall (show Has w ps s2 from h3) (.obj o) d
    simp only
    generalize Plug.uninstall ps (.obj o) d s2 = R at h4 ⊢
    obtain ⟨r, s3⟩ := R
    cases r <;> exact h4

theorem Has.pendingActivations {w : World} {ps : Objs} (x : Str → Bool) (l : List Str) {s : St} (h : Has w ps s) :
    Has w ps (Plug.pendingActivations w ps x l s).2 := by
  induction l generalizing s with
  | nil => exact h
  | cons n l ih =>
    simp only [Plug.pendingActivations]
    have h1 : Has w ps { s with pendAct := s.pendAct.filter (fun m => !(m == n)) } := h.pend _ _
    split
    · exact ih h1
    · have h2 := h1.activate (.name n) (x n)
      generalize Plug.activate w ps (.name n) (x n) { s with pendAct := s.pendAct.filter (fun m => !(m == n)) } = R at h2 ⊢
      obtain ⟨r, s2⟩ := R
      cases r
      · exact ih h2
      all_goals exact h2

theorem Has.pendingDeactivations {w : World} {ps : Objs} (x : Str → Bool) (l : List Str) {s : St} (h : Has w ps s) :
    Has w ps (Plug.pendingDeactivations ps x l s).2 := by
  induction l generalizing s with
  | nil => exact h
  | cons n l ih =>
    simp only [Plug.pendingDeactivations]
    have h1 : Has w ps { s with pendDeact := s.pendDeact.filter (fun m => !(m == n)) } := h.pend _ _
    split
    · have h2 := h1.deactivate (.name n) (x n)
      generalize Plug.deactivate ps (.name n) (x n) { s with pendDeact := s.pendDeact.filter (fun m => !(m == n)) } = R at h2 ⊢
      obtain ⟨r, s2⟩ := R
      cases r
      · exact ih h2
      all_goals exact h2
    · exact ih h1

theorem Has.step {w : World} {ps : Objs} {s : St} (h : Has w ps s) (op : Op) (hf : Keeps ps s op) : Has w ps (op.run w ps s).2 := by
  cases op with
  | install o a l i x d => exact h.install o a l i x d hf
  | uninstall r x => exact h.uninstall r x
  | activate r x => exact h.activate r x
  | deactivate r x => exact h.deactivate r x
  | activateLater r => exact (h.later r).1
  | deactivateLater r => exact (h.later r).2
  | activatePending a d oA oD =>
    show Has w ps (Plug.activatePending w ps a d oA oD s).2
    unfold Plug.activatePending
    have h1 := Has.pendingActivations a oA h
    generalize Plug.pendingActivations w ps a oA s = R at h1 ⊢
    obtain ⟨r, s1⟩ := R
    cases r
    · exact Has.pendingDeactivations d oD h1
    all_goals exact h1

theorem Has.run {w : World} {ps : Objs} (ops : List Op) {s : St} (h : Has w ps s) (hk : AllKeep w ps ops s) :
    Has w ps (Plug.run w ps ops s) := by
  induction ops generalizing s with
  | nil => exact h
  | cons op ops ih => exact ih (h.step op hk.1) hk.2

theorem Has.empty (w : World) (ps : Objs) : Has w ps {} := ⟨WF.empty ps, List.nodup_nil, (fun _ h => by cases h)⟩

theorem reached {w : World} {ps : Objs} (ops : List Op) (hk : AllKeep w ps ops {}) : Has w ps (run w ps ops {}) :=
  (Has.empty w ps).run ops hk

theorem mem_fire {N P : Reg → List Str} {order : List Reg → Option (List Reg)} (ho : Orders N P order) {h : Str} {s : St} {l : List Reg}
    (hf : fire order h s = some l) (r : Reg) : r ∈ l ↔ r ∈ s.regs ∧ r.hook = h := by
  rw [(ho.perm _ _ hf).mem_iff, List.mem_filter, beq_iff_eq]

/-! ## C177 -/

/-- The plugin asks for `session_end` (and this hook is there), but not for `session_start`. -/
def OnlyEnds (w : World) (p : Plugin) : Prop :=
  (∃ x ∈ p.wants, w.known x.2.1 x.2.2 = true ∧ x.2.1 = sessionEnd) ∧ ¬ ∃ x ∈ p.wants, w.known x.2.1 x.2.2 = true ∧ x.2.1 = sessionStart

theorem provided {w : World} {D : Nat → Deps} {ps : Objs} {s : St} (hs : Has w (withDeps D ps) s)
    (n : Str) (hn : n ∈ s.active) (o : Nat) (i : Bool) (ho : dictGet n s.installed = some (o, i)) (x : Str) (hx : x ∈ (D o).provides)
    (h : Str) (hh : h ∈ w.slash) (hno : ¬ (OnlyEnds w (ps o) ∧ h = sessionStart)) :
    ∃ r ∈ s.regs, r.hook = h ∧ r.token = some n ∧ x ∈ providesOf D r := by
  have hname : (ps o).name = n := hs.wf.key _ (dictGet_mem _ _ _ ho)
  have hprov : (withDeps D ps o).provides = true := by
    show (!(D o).provides.isEmpty) = true
    cases hp : (D o).provides with
    | nil => rw [hp] at hx; cases hx
    | cons a l => rfl
  by_cases hw : ∃ y ∈ (ps o).wants, w.known y.2.1 y.2.2 = true ∧ y.2.1 = h
  · obtain ⟨y, hy, hk, rfl⟩ := hw
    refine ⟨{ hook := y.2.1, token := some n, cb := .method o y.1.name }, ?_, rfl, rfl, ?_⟩
    · apply hs.has n hn o i ho _ (.inr _)
      unfold registrations
      refine List.mem_append_left _ (List.mem_map.2 ⟨y, List.mem_filter.2 ⟨hy, hk⟩, ?_⟩)
      rw [← hname]; rfl
    · simp [providesOf, hx]
  · refine ⟨{ hook := h, token := some n, cb := .noop o }, ?_, rfl, rfl, hx⟩
    apply hs.has n hn o i ho _ (.inl _)
    unfold registrations
    simp only [hprov, if_true]
    refine List.mem_map.2 ⟨h, List.mem_filter.2 ⟨List.mem_filter.2 ⟨hh, ?_⟩, ?_⟩, ?_⟩
    · rw [Bool.not_eq_true', List.any_eq_false]
      intro y hy he
      obtain ⟨h1, h2⟩ := List.mem_filter.1 hy
      exact hw ⟨y, h1, h2, by simpa using he⟩
    · rw [Bool.not_eq_true', Bool.and_eq_false_iff]
      by_cases he : h = sessionStart
      · left
        rw [Bool.and_eq_false_iff]
        by_cases hst : ∃ y ∈ (ps o).wants, w.known y.2.1 y.2.2 = true ∧ y.2.1 = sessionStart
        · exact absurd (he ▸ hst) hw
        · left
          rw [List.any_eq_false]
          intro y hy hye
          obtain ⟨h1, h2⟩ := List.mem_filter.1 hy
          exact hno ⟨⟨⟨y, h1, h2, by simpa using hye⟩, hst⟩, he⟩
      · right; simpa using he
    · rw [← hname]; rfl

/-- C177, the part that holds (no plugin is installed over another active one; and a plugin with `session_end` and without `session_start`
does not provide anything when the session starts): an active plugin that is marked as providing something does so at every hook of the
`slash` group, whether it has a method for it or not, whatever happened before. -/
theorem C177_provides_partial (w : World) (D : Nat → Deps) (ps : Objs) (ops : List Op) (hk : AllKeep w (withDeps D ps) ops {})
    (n : Str) (hn : n ∈ (run w (withDeps D ps) ops {}).active) (o : Nat) (i : Bool)
    (ho : dictGet n (run w (withDeps D ps) ops {}).installed = some (o, i)) (x : Str) (hx : x ∈ (D o).provides)
    (h : Str) (hh : h ∈ w.slash) (hno : ¬ (OnlyEnds w (ps o) ∧ h = sessionStart)) :
    ∃ r ∈ (run w (withDeps D ps) ops {}).regs, r.hook = h ∧ r.token = some n ∧ x ∈ providesOf D r :=
  provided (reached ops hk) n hn o i ho x hx h hh hno

/-- C177: what is needed at a hook is what active plugins declared for methods that are registered there: for the class, for the method, or
for the registration. -/
theorem C177_needs (w : World) (D : Nat → Deps) (ps : Objs) (ops : List Op) (r : Reg) (hr : r ∈ (run w (withDeps D ps) ops {}).regs)
    (x : Str) (hx : x ∈ needsOf D r) :
    ∃ o m, r.cb = .method o m ∧ (∃ n ∈ (run w (withDeps D ps) ops {}).active, r.token = some n) ∧
      (x ∈ (D o).needs ∨ x ∈ (D o).methodNeeds m ∨ x ∈ (D o).argNeeds m r.hook) := by
  have hwf : WF (withDeps D ps) (run w (withDeps D ps) ops {}) := (WF.empty _).run ops
  obtain ⟨h, t, cb⟩ := r
  cases cb with
  | method o m =>
    refine ⟨o, m, rfl, hwf.reg _ hr rfl, ?_⟩
    simp only [needsOf, List.mem_append] at hx
    rcases hx with (hx | hx) | hx
    · exact .inr (.inl hx)
    · exact .inl hx
    · exact .inr (.inr hx)
  | noop o => cases hx
  | toggle o => cases hx

/-- C177: when a hook is called and all goes well, all callbacks registered for it are called, once for each registration, and those that
provide something come before those that need it. -/
theorem C177_order (D : Nat → Deps) (order : List Reg → Option (List Reg)) (hO : Orders (needsOf D) (providesOf D) order) (s : St) (h : Str)
    (l : List Reg) (hf : fire order h s = some l) :
    l.Perm (s.regs.filter (fun r => r.hook == h)) ∧
    ∀ i j (hi : i < l.length) (hj : j < l.length), ∀ x ∈ providesOf D l[i], x ∈ needsOf D l[j] → i ≤ j := by
  refine ⟨hO.perm _ _ hf, ?_⟩
  intro i j hi hj x hx hx'
  by_cases hle : i ≤ j
  · exact hle
  · exfalso
    have e : l = l.take j ++ l[j] :: l.drop (j + 1) := by rw [List.getElem_cons_drop, List.take_append_drop]
    refine hO.after _ (l.take j) l[j] (l.drop (j + 1)) (by rw [← e]; exact hf) l[i] ?_ x hx' hx
    rw [List.mem_iff_getElem]
    refine ⟨i - (j + 1), by rw [List.length_drop]; omega, ?_⟩
    rw [List.getElem_drop]
    congr 1
    omega

/-- C177, for two plugins: a method of an active plugin that provides something — the plugin as a whole, the method, or the registration is
marked so — is called before each method of another one that needs it, in any of the same three ways. -/
theorem C177_first_partial (w : World) (D : Nat → Deps) (ps : Objs) (order : List Reg → Option (List Reg))
    (hO : Orders (needsOf D) (providesOf D) order) (ops : List Op) (hk : AllKeep w (withDeps D ps) ops {}) (h : Str) (l : List Reg)
    (hf : fire order h (run w (withDeps D ps) ops {}) = some l)
    (n : Str) (hn : n ∈ (run w (withDeps D ps) ops {}).active) (o : Nat) (i : Bool)
    (ho : dictGet n (run w (withDeps D ps) ops {}).installed = some (o, i))
    (m : Method) (e : Bool) (hm : (m, h, e) ∈ (ps o).wants) (hkn : w.known h e = true)
    (x : Str) (hx : x ∈ (D o).provides ∨ x ∈ (D o).methodProvides m.name ∨ x ∈ (D o).argProvides m.name h)
    (q : Reg) (hq : q ∈ l) (o' : Nat) (m' : Str) (hcb : q.cb = .method o' m')
    (hx' : x ∈ (D o').needs ∨ x ∈ (D o').methodNeeds m' ∨ x ∈ (D o').argNeeds m' h) (hne : q.cb ≠ .method o m.name) :
    ∃ a b, l = a ++ q :: b ∧ { hook := h, token := some n, cb := .method o m.name } ∈ a := by
  have hs := reached ops hk
  have hname : (ps o).name = n := hs.wf.key _ (dictGet_mem _ _ _ ho)
  have hqh : q.hook = h := ((mem_fire hO hf q).1 hq).2
  have hq' : x ∈ needsOf D q := by
    unfold needsOf
    rw [hcb]
    simp only [List.mem_append, hqh]
    rcases hx' with hx' | hx' | hx'
    · exact .inl (.inr hx')
    · exact .inl (.inl hx')
    · exact .inr hx'
  have hmem : { hook := h, token := some n, cb := .method o m.name } ∈ l := by
    rw [mem_fire hO hf]
    refine ⟨hs.has n hn o i ho _ (.inr ?_), rfl⟩
    unfold registrations
    refine List.mem_append_left _ (List.mem_map.2 ⟨(m, h, e), List.mem_filter.2 ⟨hm, hkn⟩, ?_⟩)
    rw [← hname]; rfl
  obtain ⟨a, b, rfl⟩ := List.append_of_mem hq
  refine ⟨a, b, rfl, ?_⟩
  rcases List.mem_append.1 hmem with hm | hm
  · exact hm
  · rcases List.mem_cons.1 hm with e | hm
    · exact absurd (by rw [← e]) hne
    · refine absurd ?_ (hO.after _ a q b hf _ hm x hq')
      simp only [providesOf, List.mem_append]
      rcases hx with hx | hx | hx
      · exact .inl (.inr hx)
      · exact .inl (.inl hx)
      · exact .inr hx

/-- C177, the part that holds: if all that is needed at a hook of the `slash` group is provided by active plugins marked so, and needs are
not circular, calling the hook does not fail. -/
theorem C177_fires_partial (w : World) (D : Nat → Deps) (ps : Objs) (order : List Reg → Option (List Reg))
    (hO : Orders (needsOf D) (providesOf D) order) (ops : List Op) (hk : AllKeep w (withDeps D ps) ops {}) (h : Str) (hh : h ∈ w.slash)
    (hp : ∀ r ∈ (run w (withDeps D ps) ops {}).regs, r.hook = h → ∀ x ∈ needsOf D r,
      ∃ n ∈ (run w (withDeps D ps) ops {}).active, ∃ o i, dictGet n (run w (withDeps D ps) ops {}).installed = some (o, i) ∧
        x ∈ (D o).provides ∧ ¬ (OnlyEnds w (ps o) ∧ h = sessionStart))
    (rank : Reg → Nat) (hr : ∀ q r : Reg, ∀ x ∈ providesOf D q, x ∈ needsOf D r → rank q < rank r) :
    (fire order h (run w (withDeps D ps) ops {})).isSome = true := by
  apply hO.total
  · intro r hr x hx
    obtain ⟨h1, h2⟩ := List.mem_filter.1 hr
    obtain ⟨n, hn, o, i, ho, hx', hno⟩ := hp r h1 (by simpa using h2) x hx
    obtain ⟨q, hq, hqh, -, hqx⟩ := provided (reached ops hk) n hn o i ho x hx' h hh hno
    exact ⟨q, List.mem_filter.2 ⟨hq, by simpa using hqh⟩, hqx⟩
  · exact ⟨rank, fun q _ r _ => hr q r⟩

/-- C177: calling a hook for which no active plugin needs anything does not fail. -/
theorem C177_free (D : Nat → Deps) (order : List Reg → Option (List Reg)) (hO : Orders (needsOf D) (providesOf D) order) (s : St) (h : Str)
    (hn : ∀ r ∈ s.regs, r.hook = h → needsOf D r = []) : (fire order h s).isSome = true := by
  have hn' : ∀ r ∈ s.regs.filter (fun r => r.hook == h), needsOf D r = [] := by
    intro r hr
    obtain ⟨h1, h2⟩ := List.mem_filter.1 hr
    exact hn r h1 (by simpa using h2)
  apply hO.total
  · intro r hr x hx
    rw [hn' r hr] at hx; cases hx
  · refine ⟨fun _ => 0, ?_⟩
    intro q _ r hr x _ hx
    rw [hn' r hr] at hx; cases hx

/-- C177: once the plugin that provides something is deactivated (even if its `deactivate` raises), and no other one provides it, hooks for
which another active plugin needs it cannot be called. -/
theorem C177_deactivated (w : World) (D : Nat → Deps) (ps : Objs) (order : List Reg → Option (List Reg))
    (hO : Orders (needsOf D) (providesOf D) order) (s : St) (r : Ref) (raises : Bool) (o : Nat)
    (ho : find (withDeps D ps) s r = some o) (ha : (ps o).name ∈ s.active) (x : Str) (h : Str)
    (hp : ∀ q ∈ s.regs, q.hook = h → x ∈ providesOf D q → q.token = some (ps o).name)
    (q : Reg) (hq : q ∈ s.regs) (hqh : q.hook = h) (hqn : x ∈ needsOf D q) (hqt : q.token ≠ some (ps o).name) :
    fire order h (deactivate (withDeps D ps) r raises s).2 = none := by
  rcases deactivate_cases (withDeps D ps) r raises s with ⟨e, -⟩ | ⟨o', ho', ⟨hm, e⟩ | ⟨hm, e⟩⟩
  · rw [ho] at e; cases e
  · rw [ho] at ho'; cases ho'
    rw [e]
    cases hf : fire order h (if raises = true then Res.userError else Res.ok, drop (withDeps D ps o).name s).2 with
    | none => rfl
    | some l =>
      exfalso
      have hq2 : q ∈ (drop (ps o).name s).regs.filter (fun r => r.hook == h) := by
        refine List.mem_filter.2 ⟨List.mem_filter.2 ⟨hq, ?_⟩, by simpa using hqh⟩
        simpa using hqt
      obtain ⟨q', hq', hx'⟩ := hO.met _ _ hf q hq2 x hqn
      obtain ⟨h1, h2⟩ := List.mem_filter.1 hq'
      obtain ⟨h3, h4⟩ := List.mem_filter.1 h1
      have h4 : (!(q'.token == some (ps o).name)) = true := h4
      rw [hp q' h3 (by simpa using h2) hx'] at h4
      simp at h4
  · rw [ho] at ho'; cases ho'
    exact absurd ha hm

/-! ### Who provides something -/

/-- all registrations but the functions that turn toggles on belong to active plugins -/
def Owned (s : St) : Prop := ∀ r ∈ s.regs, (∃ n ∈ s.active, r.token = some n) ∨ ∃ o, r.cb = .toggle o

theorem regs_owned (w : World) (p : Plugin) (o : Nat) (q : Reg)
    (h : q ∈ (registrations w p o).noops ∨ q ∈ (registrations w p o).regs) : q.token = some p.name ∨ ∃ o, q.cb = .toggle o := by
  unfold registrations at h
  simp only at h
  rcases h with h | h
  · obtain ⟨x, -, rfl⟩ := List.mem_map.1 h; exact .inl rfl
  · rcases List.mem_append.1 h with h | h
    · obtain ⟨x, -, rfl⟩ := List.mem_map.1 h; exact .inl rfl
    · split at h
      · rw [List.mem_singleton] at h; subst h; exact .inr ⟨o, rfl⟩
      · cases h

theorem Owned.drop {s : St} (h : Owned s) (n : Str) : Owned (drop n s) := by
  intro r hr
  obtain ⟨h1, h2⟩ := List.mem_filter.1 hr
  rcases h r h1 with ⟨m, hm, e⟩ | h
  · refine .inl ⟨m, List.mem_filter.2 ⟨hm, ?_⟩, e⟩
    rw [e] at h2
    simpa using h2
  · exact .inr h

theorem Owned.activate {w : World} {ps : Objs} {s : St} (h : Owned s) (hc : ∀ o, (registrations w (ps o) o).unknown = []) (r : Ref) (x : Bool) :
    Owned (Plug.activate w ps r x s).2 := by
  rcases activate_cases w ps r x s with ⟨-, e⟩ | ⟨o, hfo, ⟨-, e⟩ | ⟨-, hu, e⟩ | ⟨-, -, e⟩⟩
  · rw [e]; exact h
  · rw [e]; exact h
  · exact absurd (hc o) hu
  · rw [e]
    intro q hq
    have hq : q ∈ s.regs ++ (registrations w (ps o) o).noops ++ (registrations w (ps o) o).regs := hq
    have hnew : (q ∈ (registrations w (ps o) o).noops ∨ q ∈ (registrations w (ps o) o).regs) →
        (∃ n ∈ setAdd (ps o).name s.active, q.token = some n) ∨ ∃ o, q.cb = .toggle o := by
      intro hq
      rcases regs_owned w (ps o) o q hq with e | e
      · exact .inl ⟨_, (mem_setAdd _ _ _).2 (.inl rfl), e⟩
      · exact .inr e
    rcases List.mem_append.1 hq with hq | hq
    · rcases List.mem_append.1 hq with hq | hq
      · rcases h q hq with ⟨m, hm, e⟩ | h
        · exact .inl ⟨m, (mem_setAdd _ _ _).2 (.inr hm), e⟩
        · exact .inr h
      · exact hnew (.inl hq)
    · exact hnew (.inr hq)

theorem Owned.deactivate {ps : Objs} {s : St} (h : Owned s) (r : Ref) (x : Bool) : Owned (Plug.deactivate ps r x s).2 := by
  rcases deactivate_cases ps r x s with ⟨-, e⟩ | ⟨o, -, ⟨-, e⟩ | ⟨-, e⟩⟩
  · rw [e]; exact h
  · rw [e]; exact h.drop _
  · rw [e]; exact h

theorem Owned.uninstall {ps : Objs} {s : St} (h : Owned s) (r : Ref) (x : Bool) : Owned (Plug.uninstall ps r x s).2 := by
  rcases uninstall_cases ps r x s with ⟨e, -⟩ | ⟨o, -, ⟨-, -, e⟩ | ⟨-, -, e⟩ | ⟨hm, e⟩⟩
  · rw [e]; exact h
  · rw [e]; exact h.drop _
  · rw [e]; exact h.drop _
  · rw [e]; exact h

theorem Owned.later {ps : Objs} {s : St} (h : Owned s) (r : Ref) : Owned (activateLater ps r s).2 ∧ Owned (deactivateLater ps r s).2 := by
  unfold activateLater deactivateLater
  cases find ps s r with
  | none => exact ⟨h, h⟩
  | some o => exact ⟨h, h⟩

theorem Owned.install {w : World} {ps : Objs} {s : St} (h : Owned s) (hc : ∀ o, (registrations w (ps o) o).unknown = [])
    (o : Nat) (a l i x d : Bool) : Owned (Plug.install w ps o a l i x d s).2 := by
  unfold Plug.install
  split
  · exact h
  split
  · exact h
  simp only
  have h1 : Owned { s with
      installed := dictSet (ps o).name (o, i) s.installed
      cmdline := dictSet (norm (ps o).name) (ps o).name s.cmdline } := h
  generalize ({ s with
      installed := dictSet (ps o).name (o, i) s.installed
      cmdline := dictSet (norm (ps o).name) (ps o).name s.cmdline } : St) = s1 at h1 ⊢
  have h2 : ∀ R : Res × St, Owned R.2 → Owned (match R with
      | (.ok, s) => if l then activateLater ps (.name (ps o).name) s else (.ok, s)
      | x => x).2 := by
    intro R hR
    obtain ⟨r, s2⟩ := R
    cases r <;> simp only
    · cases l
      · exact hR
      · exact (Owned.later hR _).1
    all_goals exact hR
  apply h2
  cases a with
  | false => exact h1
  | true =>
    have h3 := h1.activate hc (.name (ps o).name) x
    rw [if_pos rfl]
    generalize Plug.activate w ps (.name (ps o).name) x s1 = R at h3 ⊢
    obtain ⟨r, s2⟩ := R
    cases r <;> try exact h3
    have h4 := Owned.uninstall (ps := ps) (show Owned s2 from h3) (.obj o) d
    simp only
    generalize Plug.uninstall ps (.obj o) d s2 = R at h4 ⊢
    obtain ⟨r, s3⟩ := R
    cases r <;> exact h4

theorem Owned.pendingActivations {w : World} {ps : Objs} (hc : ∀ o, (registrations w (ps o) o).unknown = []) (x : Str → Bool) (l : List Str)
    {s : St} (h : Owned s) : Owned (Plug.pendingActivations w ps x l s).2 := by
  induction l generalizing s with
  | nil => exact h
  | cons n l ih =>
    simp only [Plug.pendingActivations]
    have h1 : Owned { s with pendAct := s.pendAct.filter (fun m => !(m == n)) } := h
    split
    · exact ih h1
    · have h2 := h1.activate hc (.name n) (x n)
      generalize Plug.activate w ps (.name n) (x n) { s with pendAct := s.pendAct.filter (fun m => !(m == n)) } = R at h2 ⊢
      obtain ⟨r, s2⟩ := R
      cases r
      · exact ih h2
      all_goals exact h2

theorem Owned.pendingDeactivations {ps : Objs} (x : Str → Bool) (l : List Str) {s : St} (h : Owned s) :
    Owned (Plug.pendingDeactivations ps x l s).2 := by
  induction l generalizing s with
  | nil => exact h
  | cons n l ih =>
    simp only [Plug.pendingDeactivations]
    have h1 : Owned { s with pendDeact := s.pendDeact.filter (fun m => !(m == n)) } := h
    split
    · have h2 := h1.deactivate (ps := ps) (.name n) (x n)
      generalize Plug.deactivate ps (.name n) (x n) { s with pendDeact := s.pendDeact.filter (fun m => !(m == n)) } = R at h2 ⊢
      obtain ⟨r, s2⟩ := R
      cases r
      · exact ih h2
      all_goals exact h2
    · exact ih h1

theorem Owned.run {w : World} {ps : Objs} (hc : ∀ o, (registrations w (ps o) o).unknown = []) (ops : List Op) {s : St} (h : Owned s) :
    Owned (Plug.run w ps ops s) := by
  induction ops generalizing s with
  | nil => exact h
  | cons op ops ih =>
    refine ih (s := (op.run w ps s).2) ?_
    cases op with
    | install o a l i x d => exact h.install hc o a l i x d
    | uninstall r x => exact h.uninstall r x
    | activate r x => exact h.activate hc r x
    | deactivate r x => exact h.deactivate r x
    | activateLater r => exact (h.later r).1
    | deactivateLater r => exact (h.later r).2
    | activatePending a d oA oD =>
      show Owned (Plug.activatePending w ps a d oA oD s).2
      unfold Plug.activatePending
      have h1 := Owned.pendingActivations hc a oA h
      generalize Plug.pendingActivations w ps a oA s = R at h1 ⊢
      obtain ⟨r, s1⟩ := R
      cases r
      · exact Owned.pendingDeactivations d oD h1
      all_goals exact h1

/-- C177, the part that holds (all plugins have methods for known hooks only): only active plugins provide anything. -/
theorem C177_providers_partial (w : World) (D : Nat → Deps) (ps : Objs) (hc : ∀ o, ∀ x ∈ (ps o).wants, w.known x.2.1 x.2.2 = true)
    (ops : List Op) (r : Reg) (hr : r ∈ (run w (withDeps D ps) ops {}).regs) (x : Str) (hx : x ∈ providesOf D r) :
    ∃ n ∈ (run w (withDeps D ps) ops {}).active, r.token = some n := by
  have hc' : ∀ o, (registrations w (withDeps D ps o) o).unknown = [] := by
    intro o
    unfold registrations
    show List.map _ (List.filter _ (ps o).wants) = []
    rw [List.map_eq_nil_iff, List.filter_eq_nil_iff]
    intro y hy
    rw [hc o y hy]
    decide
  rcases Owned.run hc' ops (s := {}) (fun _ h => by cases h) r hr with h | ⟨o, e⟩
  · exact h
  · unfold providesOf at hx
    rw [e] at hx
    cases hx

/-! ## Examples, and what does not hold -/

/-- a method with this name -/
def exMethod (n : String) : Method := { name := n.toList }
/-- hooks called after methods -/
def exHook (n : String) : Str := "slash.".toList ++ n.toList
/-- some hooks of the `slash` group -/
def exHooks : World := { known := fun h _ => [exHook "session_start", exHook "session_end", exHook "test_start"].contains h
                         slash := [exHook "session_start", exHook "session_end", exHook "test_start"] }
/-- a plugin that needs something at `session_start` and `test_start`, one that provides it, and has a method for the latter only, one that
has a method for the end of the session instead, and one that has a method for a hook that does not exist -/
def exPs : Objs
  | 0 => { name := ['a'], methods := [exMethod "session_start", exMethod "test_start"] }
  | 1 => { name := ['b'], methods := [exMethod "test_start"] }
  | 2 => { name := ['c'], methods := [exMethod "session_end"] }
  | _ => { name := ['d'], methods := [exMethod "nonsense"] }
/-- their dependencies -/
def exDeps : Nat → Deps
  | 0 => { needs := [['x']] }
  | _ => { provides := [['x']] }
/-- an order -/
def exOrder : List Reg → Option (List Reg) := resolve (needsOf exDeps) (providesOf exDeps)

example : Orders (needsOf exDeps) (providesOf exDeps) exOrder := resolve_orders _ _

example : let s := run exHooks (withDeps exDeps exPs) [.install 0 true false false false false, .install 1 true false false false false] {}
    (fire exOrder (exHook "test_start") s).map (·.map (·.cb)) = some [.method 1 "test_start".toList, .method 0 "test_start".toList] ∧
    (fire exOrder (exHook "session_start") s).map (·.map (·.cb)) = some [.noop 1, .method 0 "session_start".toList] ∧
    fire exOrder (exHook "test_start") (deactivate (withDeps exDeps exPs) (.name ['b']) false s).2 = none ∧
    (fire exOrder (exHook "session_end") (deactivate (withDeps exDeps exPs) (.name ['b']) false s).2).isSome = true := by decide +kernel

example : AllKeep exHooks (withDeps exDeps exPs) [.install 0 true false false false false, .install 1 true false false false false] {} :=
  ⟨(fun h => by cases h), (fun h => absurd h (by decide +kernel)), trivial⟩

example : let ps : Objs := fun o => if o ≤ 2 then exPs o else exPs 0
    ∀ o, ∀ x ∈ (ps o).wants, exHooks.known x.2.1 x.2.2 = true := by
  intro ps o
  by_cases h : o ≤ 2
  · have h3 : ∀ o, o < 3 → ∀ x ∈ (exPs o).wants, exHooks.known x.2.1 x.2.2 = true := by decide +kernel
    show ∀ x ∈ (if o ≤ 2 then exPs o else exPs 0).wants, _
    rw [if_pos h]; exact h3 o (by omega)
  · show ∀ x ∈ (if o ≤ 2 then exPs o else exPs 0).wants, _
    rw [if_neg h]; decide +kernel

/-- C177, violated: an active plugin marked as providing something, with a method for the end of the session and none for its start, does not
provide it at the start, so that a plugin which needs it makes starting a session fail. -/
theorem C177_only_ends_violated :
    let s := run exHooks (withDeps exDeps exPs) [.install 0 true false false false false, .install 2 true false false false false] {}
    ['c'] ∈ s.active ∧ ['a'] ∈ s.active ∧ dictGet ['c'] s.installed = some (2, false) ∧ ['x'] ∈ (exDeps 2).provides ∧
    ∀ order, Orders (needsOf exDeps) (providesOf exDeps) order →
      fire order (exHook "session_start") s = none ∧ (fire order (exHook "test_start") s).isSome = true := by
  refine ⟨by decide +kernel, by decide +kernel, by decide +kernel, by decide +kernel, ?_⟩
  intro order ho
  constructor
  · cases hf : fire order (exHook "session_start")
        (run exHooks (withDeps exDeps exPs) [.install 0 true false false false false, .install 2 true false false false false] {}) with
    | none => rfl
    | some l =>
      exfalso
      have hm := ho.met _ _ hf { hook := exHook "session_start", token := some ['a'], cb := .method 0 "session_start".toList } (by decide +kernel) ['x']
        (by decide +kernel)
      revert hm
      decide +kernel
  · apply ho.total
    · decide +kernel
    · exact ⟨fun r => match r.cb with | .method 0 _ => 1 | _ => 0, by decide +kernel⟩

/-- C177, violated: a plugin whose activation fails because it has a method for an unknown hook goes on providing what it is marked with,
though it is neither active nor installed. -/
theorem C177_incompatible_violated :
    let s := run exHooks (withDeps exDeps exPs) [.install 0 true false false false false, .install 3 true false false false false] {}
    s.active = [['a']] ∧ dictGet ['d'] s.installed = none ∧
    ∀ order, Orders (needsOf exDeps) (providesOf exDeps) order → (fire order (exHook "test_start") s).isSome = true := by
  refine ⟨by decide +kernel, by decide +kernel, ?_⟩
  intro order ho
  apply ho.total
  · decide +kernel
  · exact ⟨fun r => match r.cb with | .method 0 _ => 1 | _ => 0, by decide +kernel⟩

end Slash.Plug
