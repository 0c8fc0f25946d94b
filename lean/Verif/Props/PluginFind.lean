import Verif.Props.Plugins
/-! Property theorems about referring to plugins by name, class or object: C185. -/
namespace Slash.Plug

/-! ## What is expected -/

/-- What a user refers to: the object itself, the objects of the class, the object with the name, or with the name the command line has for it (in which spaces
are dashes). -/
def Meant (ps : Objs) : Ref → Nat → Prop
  | .obj o', o => o = o'
  | .type t, o => (ps o).type = t
  | .name n, o => (ps o).name = n ∨ (ps o).name.map (fun c => if c = ' ' then '-' else c) = n

/-- The plugin is installed: under its name there is this very object. -/
def Installed (ps : Objs) (s : St) (o : Nat) : Prop := ∃ i, dictGet (ps o).name s.installed = some (o, i)

/-- Names differ on the command line, too. -/
def Differ (ps : Objs) : Prop := ∀ o o', (ps o).name.map (fun c => if c = ' ' then '-' else c) = (ps o').name.map (fun c => if c = ' ' then '-' else c) →
  (ps o).name = (ps o').name

/-! ## Lemmas -/

/-- What holds of the tables, whatever is done: it is enough that installing and uninstalling keep it. -/
theorem run_tables (w : World) (ps : Objs) (P : List (Str × Nat × Bool) → List (Str × Str) → Prop)
    (hin : ∀ o i a b, P a b → P (dictSet (ps o).name (o, i) a) (dictSet (norm (ps o).name) (ps o).name b))
    (hout : ∀ o a b, P a b → P (dictPop (ps o).name a) (dictPop (norm (ps o).name) b)) (ops : List Op) (s : St) (h : P s.installed s.cmdline) :
    P (run w ps ops s).installed (run w ps ops s).cmdline := by
  have hact : ∀ r x s, P s.installed s.cmdline → P (activate w ps r x s).2.installed (activate w ps r x s).2.cmdline := by
    intro r x s h
    rcases activate_cases w ps r x s with ⟨-, e⟩ | ⟨o, -, ⟨-, e⟩ | ⟨-, -, e⟩ | ⟨-, -, e⟩⟩ <;> rw [e] <;> exact h
  have hde : ∀ r x s, P s.installed s.cmdline → P (deactivate ps r x s).2.installed (deactivate ps r x s).2.cmdline := by
    intro r x s h
    rcases deactivate_cases ps r x s with ⟨-, e⟩ | ⟨o, -, ⟨-, e⟩ | ⟨-, e⟩⟩ <;> rw [e] <;> exact h
  have hun : ∀ r x s, P s.installed s.cmdline → P (uninstall ps r x s).2.installed (uninstall ps r x s).2.cmdline := by
    intro r x s h
    rcases uninstall_cases ps r x s with ⟨e, -⟩ | ⟨o, -, ⟨-, -, e⟩ | ⟨-, -, e⟩ | ⟨-, e⟩⟩ <;> rw [e]
    · exact h
    · exact h
    · exact hout o _ _ h
    · exact hout o _ _ h
  have hla : ∀ r s, P s.installed s.cmdline → P (activateLater ps r s).2.installed (activateLater ps r s).2.cmdline ∧
      P (deactivateLater ps r s).2.installed (deactivateLater ps r s).2.cmdline := by
    intro r s h
    unfold activateLater deactivateLater
    cases find ps s r <;> exact ⟨h, h⟩
  have hpa : ∀ x l s, P s.installed s.cmdline → P (pendingActivations w ps x l s).2.installed (pendingActivations w ps x l s).2.cmdline := by
    intro x l
    induction l with
    | nil => intro s h; exact h
    | cons n l ih =>
      intro s h
      simp only [pendingActivations]
      split
      · exact ih _ h
      · have := hact (.name n) (x n) { s with pendAct := s.pendAct.filter (fun m => !(m == n)) } h
        generalize activate w ps (.name n) (x n) { s with pendAct := s.pendAct.filter (fun m => !(m == n)) } = R at this ⊢
        obtain ⟨r, s1⟩ := R
        cases r <;> first | exact ih s1 this | exact this
  have hpd : ∀ x l s, P s.installed s.cmdline → P (pendingDeactivations ps x l s).2.installed (pendingDeactivations ps x l s).2.cmdline := by
    intro x l
    induction l with
    | nil => intro s h; exact h
    | cons n l ih =>
      intro s h
      simp only [pendingDeactivations]
      split
      · have := hde (.name n) (x n) { s with pendDeact := s.pendDeact.filter (fun m => !(m == n)) } h
        generalize deactivate ps (.name n) (x n) { s with pendDeact := s.pendDeact.filter (fun m => !(m == n)) } = R at this ⊢
        obtain ⟨r, s1⟩ := R
        cases r <;> first | exact ih s1 this | exact this
      · exact ih _ h
  induction ops generalizing s with
  | nil => exact h
  | cons op ops ih =>
    refine ih _ ?_
    cases op with
    | uninstall r x => exact hun r x s h
    | activate r x => exact hact r x s h
    | deactivate r x => exact hde r x s h
    | activateLater r => exact (hla r s h).1
    | deactivateLater r => exact (hla r s h).2
    | activatePending a d oA oD =>
      show P (activatePending w ps a d oA oD s).2.installed (activatePending w ps a d oA oD s).2.cmdline
      unfold activatePending
      have h1 := hpa a oA s h
      generalize pendingActivations w ps a oA s = R at h1 ⊢
      obtain ⟨r, s1⟩ := R
      cases r <;> first | exact hpd d oD s1 h1 | exact h1
    | install o a l i x d =>
      show P (install w ps o a l i x d s).2.installed (install w ps o a l i x d s).2.cmdline
      unfold install
      split
      · exact h
      split
      · exact h
      simp only
      have h1 : P ({ s with
          installed := dictSet (ps o).name (o, i) s.installed
          cmdline := dictSet (norm (ps o).name) (ps o).name s.cmdline } : St).installed ({ s with
          installed := dictSet (ps o).name (o, i) s.installed
          cmdline := dictSet (norm (ps o).name) (ps o).name s.cmdline } : St).cmdline := hin o i _ _ h
      generalize ({ s with
          installed := dictSet (ps o).name (o, i) s.installed
          cmdline := dictSet (norm (ps o).name) (ps o).name s.cmdline } : St) = s1 at h1 ⊢
      have h2 : ∀ R : Res × St, P R.2.installed R.2.cmdline → P (St.installed (Prod.snd (match R with
          | (.ok, s) => if l then activateLater ps (.name (ps o).name) s else (.ok, s)
          | x => x))) (St.cmdline (Prod.snd (match R with
          | (.ok, s) => if l then activateLater ps (.name (ps o).name) s else (.ok, s)
          | x => x))) := by
        intro R hR
        obtain ⟨r, s2⟩ := R
        cases r <;> simp only
        · cases l
          · exact hR
          · rw [if_pos rfl]; exact (hla _ s2 hR).1
        all_goals exact hR
      apply h2
      cases a with
      | false => exact h1
      | true =>
        have h3 := hact (.name (ps o).name) x s1 h1
        rw [if_pos rfl]
        generalize activate w ps (.name (ps o).name) x s1 = R at h3 ⊢
        obtain ⟨r, s2⟩ := R
        cases r <;> simp only <;> try exact h3
        have h4 := hun (.obj o) d s2 h3
        generalize uninstall ps (.obj o) d s2 = R at h4 ⊢
        obtain ⟨r, s3⟩ := R
        cases r <;> exact h4

/-- If names differ on the command line, too, the table for it has them all. -/
theorem run_cmdline (w : World) (ps : Objs) (hc : Differ ps) (ops : List Op) (o : Nat)
    (h : (dictGet (ps o).name (run w ps ops {}).installed).isSome = true) : dictGet (norm (ps o).name) (run w ps ops {}).cmdline = some (ps o).name := by
  refine run_tables w ps (fun a b => ∀ o, (dictGet (ps o).name a).isSome = true → dictGet (norm (ps o).name) b = some (ps o).name) ?_ ?_ ops {}
    (fun o h => by cases h) o h
  · intro o i a b hab p hp
    rw [dictGet_set] at hp ⊢
    by_cases he : norm (ps p).name = norm (ps o).name
    · rw [if_pos he, hc p o he]
    · rw [if_neg he]
      rw [if_neg (fun e => he (by rw [e]))] at hp
      exact hab p hp
  · intro o a b hab p hp
    rw [dictGet_pop] at hp ⊢
    by_cases he : norm (ps p).name = norm (ps o).name
    · rw [if_pos (hc p o he)] at hp
      cases hp
    · rw [if_neg he]
      rw [if_neg (fun e => he (by rw [e]))] at hp
      exact hab p hp

theorem find_meant (w : World) (ps : Objs) (ops : List Op) (r : Ref) (o : Nat) (hf : find ps (run w ps ops {}) r = some o) :
    Installed ps (run w ps ops {}) o ∧ Meant ps r o := by
  have hw := (WF.empty ps).run (w := w) ops
  refine ⟨find_get hw r o hf (run_dist w ps ops {} List.nodup_nil), ?_⟩
  cases r with
  | obj o' =>
    simp only [find] at hf
    split at hf
    · cases hf; rfl
    · cases hf
  | type t =>
    simp only [find] at hf
    obtain ⟨x, hx, rfl⟩ := Option.map_eq_some_iff.1 hf
    simpa [Meant] using List.find?_some hx
  | name n =>
    simp only [find] at hf
    obtain ⟨x, hx, rfl⟩ := Option.map_eq_some_iff.1 hf
    have hk := hw.key _ (dictGet_mem _ _ _ hx)
    dsimp only at hk
    simp only [Meant, hk]
    cases hg : dictGet n (run w ps ops {}).cmdline with
    | none => exact .inl rfl
    | some v => exact .inr (hw.cmd _ (dictGet_mem _ _ _ hg)).1.symm

theorem find_none (w : World) (ps : Objs) (hc : Differ ps) (ops : List Op) (r : Ref) (o : Nat) (hi : Installed ps (run w ps ops {}) o) (hm : Meant ps r o) :
    (find ps (run w ps ops {}) r).isSome = true := by
  have hw := (WF.empty ps).run (w := w) ops
  obtain ⟨i, hi⟩ := hi
  cases r with
  | obj o' =>
    have : o = o' := hm
    subst this
    simp [find, hi]
  | type t =>
    simp only [find, Option.isSome_map, List.find?_isSome]
    exact ⟨_, dictGet_mem _ _ _ hi, by simpa [Meant] using hm⟩
  | name n =>
    simp only [find, Option.isSome_map]
    have hcmd := run_cmdline w ps hc ops o (by rw [hi]; rfl)
    rcases hm with rfl | rfl
    · cases hg : dictGet (ps o).name (run w ps ops {}).cmdline with
      | none => rw [Option.getD_none, hi]; rfl
      | some v => exact (hw.cmd _ (dictGet_mem _ _ _ hg)).2
    · show (dictGet ((dictGet (norm (ps o).name) (run w ps ops {}).cmdline).getD _) _).isSome = true
      rw [hcmd, Option.getD_some, hi]; rfl

theorem find_iff (w : World) (ps : Objs) (hc : Differ ps) (ops : List Op) (r : Ref) :
    find ps (run w ps ops {}) r = none ↔ ¬∃ o, Installed ps (run w ps ops {}) o ∧ Meant ps r o := by
  constructor
  · rintro h ⟨o, hi, hm⟩
    have := find_none w ps hc ops r o hi hm
    rw [h] at this
    cases this
  · intro h
    cases hf : find ps (run w ps ops {}) r with
    | none => rfl
    | some o => exact absurd ⟨o, find_meant w ps ops r o hf⟩ h

/-! ## C185 -/

/-- C185. Whatever was done before, and however a plugin is referred to: activating, deactivating, uninstalling and requesting either of the first two later
changes the state of a plugin that is installed and meant, and of no other. -/
theorem C185_found (w : World) (ps : Objs) (ops : List Op) (r : Ref) (x : Bool) (m : Str) :
    let s := run w ps ops {}
    let M := ∃ o, Installed ps s o ∧ Meant ps r o ∧ (ps o).name = m
    (m ∈ (activate w ps r x s).2.active ∧ m ∉ s.active → M) ∧ (m ∈ s.active ∧ m ∉ (deactivate ps r x s).2.active → M) ∧
    ((dictGet m s.installed).isSome = true ∧ (dictGet m (uninstall ps r x s).2.installed).isSome = false → M) ∧
    (m ∈ (activateLater ps r s).2.pendAct ∧ m ∉ s.pendAct → M) ∧ (m ∈ (deactivateLater ps r s).2.pendDeact ∧ m ∉ s.pendDeact → M) := by
  intro s M
  have hM : ∀ o, find ps s r = some o → m = (ps o).name → M := fun o ho he =>
    ⟨o, (find_meant w ps ops r o ho).1, (find_meant w ps ops r o ho).2, he.symm⟩
  refine ⟨?_, ?_, ?_, ?_, ?_⟩
  · rintro ⟨h1, h2⟩
    rcases activate_cases w ps r x s with ⟨-, e⟩ | ⟨o, ho, ⟨-, e⟩ | ⟨-, -, e⟩ | ⟨-, -, e⟩⟩ <;> rw [e] at h1
    · exact absurd h1 h2
    · exact absurd h1 h2
    · exact absurd h1 h2
    · rcases (mem_setAdd _ _ _).1 h1 with h | h
      · exact hM o ho h
      · exact absurd h h2
  · rintro ⟨h1, h2⟩
    rcases deactivate_cases ps r x s with ⟨-, e⟩ | ⟨o, ho, ⟨-, e⟩ | ⟨-, e⟩⟩ <;> rw [e] at h2
    · exact absurd h1 h2
    · refine hM o ho ?_
      by_cases he : m = (ps o).name
      · exact he
      · exact absurd (List.mem_filter.2 ⟨h1, by simpa using he⟩) h2
    · exact absurd h1 h2
  · rintro ⟨h1, h2⟩
    have hp : ∀ o, find ps s r = some o → (dictGet m (dictPop (ps o).name s.installed)).isSome = false → M := by
      intro o ho h
      rw [dictGet_pop] at h
      split at h
      · rename_i he; exact hM o ho he
      · rw [h1] at h; cases h
    rcases uninstall_cases ps r x s with ⟨e, -⟩ | ⟨o, ho, ⟨-, -, e⟩ | ⟨-, -, e⟩ | ⟨-, e⟩⟩ <;> rw [e] at h2
    · rw [h1] at h2; cases h2
    · exact absurd (h1.symm.trans h2) (by simp)
    · exact hp o ho h2
    · exact hp o ho h2
  · rintro ⟨h1, h2⟩
    unfold activateLater at h1
    revert h1
    cases hf : find ps s r with
    | none => exact fun h1 => absurd h1 h2
    | some o =>
      intro h1
      rcases (mem_setAdd _ _ _).1 h1 with h | h
      · exact hM o hf h
      · exact absurd h h2
  · rintro ⟨h1, h2⟩
    unfold deactivateLater at h1
    revert h1
    cases hf : find ps s r with
    | none => exact fun h1 => absurd h1 h2
    | some o =>
      intro h1
      rcases (mem_setAdd _ _ _).1 h1 with h | h
      · exact hM o hf h
      · exact absurd h h2

/-- C185, the part that holds (names differ on the command line, too). Each of these operations is refused with `UnknownPlugin` - and then changes nothing -
if and only if no installed plugin is meant. -/
theorem C185_unknown_partial (w : World) (ps : Objs) (hc : Differ ps) (ops : List Op) (r : Ref) (x : Bool) :
    let s := run w ps ops {}
    let N := ¬∃ o, Installed ps s o ∧ Meant ps r o
    ((activate w ps r x s).1 = .unknownPlugin ↔ N) ∧ ((deactivate ps r x s).1 = .unknownPlugin ↔ N) ∧ ((uninstall ps r x s).1 = .unknownPlugin ↔ N) ∧
    ((activateLater ps r s).1 = .unknownPlugin ↔ N) ∧ ((deactivateLater ps r s).1 = .unknownPlugin ↔ N) ∧
    (N → (activate w ps r x s).2 = s ∧ (deactivate ps r x s).2 = s ∧ (uninstall ps r x s).2 = s ∧ (activateLater ps r s).2 = s ∧
      (deactivateLater ps r s).2 = s) := by
  intro s N
  have hN : find ps s r = none ↔ N := find_iff w ps hc ops r
  rw [← hN]
  cases hf : find ps s r with
  | none => simp [activate, deactivate, uninstall, activateLater, deactivateLater, hf]
  | some o =>
    obtain ⟨⟨i, hi⟩, -⟩ := find_meant w ps ops r o hf
    have ho : find ps s (.obj o) = some o := by simp only [find]; rw [hi]; simp
    simp only [reduceCtorEq, iff_false, false_implies, and_true]
    refine ⟨?_, ?_, ?_, ?_, ?_⟩
    · rcases activate_cases w ps r x s with ⟨h, -⟩ | ⟨o', -, ⟨-, e⟩ | ⟨-, -, e⟩ | ⟨-, -, e⟩⟩
      · rw [hf] at h; cases h
      all_goals rw [e]; simp
    · rcases deactivate_cases ps r x s with ⟨h, -⟩ | ⟨o', -, ⟨-, e⟩ | ⟨-, e⟩⟩
      · rw [hf] at h; cases h
      · rw [e]; cases x <;> simp
      · rw [e]; simp
    · simp only [uninstall, hf]
      rcases deactivate_cases ps (.obj o) x s with ⟨h, -⟩ | ⟨o', -, ⟨-, e⟩ | ⟨-, e⟩⟩
      · rw [ho] at h; cases h
      · rw [e]; cases x <;> simp
      · rw [e]; simp
    · simp [activateLater, hf]
    · simp [deactivateLater, hf]

/-- C185. Of several plugins of a class it is the first one that is meant, in the order in which their names were installed. -/
theorem C185_first (w : World) (ps : Objs) (ops : List Op) (t : Nat) (a b : List (Str × Nat × Bool)) (e : Str × Nat × Bool)
    (hs : (run w ps ops {}).installed = a ++ e :: b) (ha : ∀ y ∈ a, (ps y.2.1).type ≠ t) (he : (ps e.2.1).type = t) (x : Bool) :
    let s := run w ps ops {}
    activate w ps (.type t) x s = activate w ps (.obj e.2.1) x s ∧ deactivate ps (.type t) x s = deactivate ps (.obj e.2.1) x s ∧
    uninstall ps (.type t) x s = uninstall ps (.obj e.2.1) x s ∧ activateLater ps (.type t) s = activateLater ps (.obj e.2.1) s ∧
    deactivateLater ps (.type t) s = deactivateLater ps (.obj e.2.1) s := by
  intro s
  have hf : find ps s (.type t) = some e.2.1 := by
    simp only [find]
    show ((run w ps ops {}).installed.find? _).map _ = _
    rw [hs, List.find?_append, List.find?_eq_none.2 (by intro y hy; simpa using ha y hy)]
    simp [he]
  obtain ⟨⟨i, hi⟩, -⟩ := find_meant w ps ops (.type t) _ hf
  have ho : find ps s (.obj e.2.1) = some e.2.1 := by simp only [find]; rw [hi]; simp
  simp only [activate, deactivate, uninstall, activateLater, deactivateLater, hf, ho, and_self]

/-- two plugins of the same class, one of another class; one has a space in its name -/
def exFind : Objs := fun o =>
  match o with
  | 0 => { name := ['a', ' ', 'b'], type := 1 }
  | 1 => { name := ['c'], type := 1 }
  | 2 => { name := ['a', '-', 'b'], type := 2 }
  | _ => { name := ['d'], type := 3 }

/-- both are installed -/
def exFindOps : List Op := [.install 0 false false false false false, .install 1 false false false false false]

example : (activate exWorld exFind (.name ['a', '-', 'b']) false (run exWorld exFind exFindOps {})).2.active = [['a', ' ', 'b']] := by decide +kernel
example : (activate exWorld exFind (.type 1) false (run exWorld exFind exFindOps {})).2.active = [['a', ' ', 'b']] := by decide +kernel
example : (activate exWorld exFind (.type 1) false (run exWorld exFind (exFindOps ++ [.uninstall (.obj 0) false]) {})).2.active = [['c']] := by decide +kernel
example : (activate exWorld exFind (.type 2) false (run exWorld exFind exFindOps {})).1 = .unknownPlugin := by decide +kernel

/-- C185, violated. If the name of one plugin is what another one is called on the command line, referring to the first one by its name means the other one;
and when the first one is uninstalled, the other one is no longer known by that name. -/
theorem C185_clash_violated :
    let s := run exWorld exFind [.install 2 false false false false false, .install 0 false false false false false] {}
    let s' := run exWorld exFind [.uninstall (.obj 2) false] s
    (activate exWorld exFind (.name ['a', '-', 'b']) false s).2.active = [['a', ' ', 'b']] ∧
    (activate exWorld exFind (.name ['a', '-', 'b']) false s').1 = .unknownPlugin ∧ s'.installed = [(['a', ' ', 'b'], 0, false)] := by decide +kernel

end Slash.Plug
