import Verif.Model.PluginConfig
import Verif.Props.Plugins
/-! # Lemmas about the configuration of plugins -/
namespace Slash.PConf
open Slash.Plug

theorem act_installed (w : World) (ps : Objs) (r : Ref) (x : Bool) (s : St) : (activate w ps r x s).2.installed = s.installed := by
  rcases activate_cases w ps r x s with ⟨-, e⟩ | ⟨o, -, ⟨-, e⟩ | ⟨-, -, e⟩ | ⟨-, -, e⟩⟩ <;> rw [e]

theorem de_installed (ps : Objs) (r : Ref) (x : Bool) (s : St) : (deactivate ps r x s).2.installed = s.installed := by
  rcases deactivate_cases ps r x s with ⟨-, e⟩ | ⟨o, -, ⟨-, e⟩ | ⟨-, e⟩⟩ <;> rw [e] <;> rfl

theorem later_installed (ps : Objs) (r : Ref) (s : St) :
    (activateLater ps r s).2.installed = s.installed ∧ (deactivateLater ps r s).2.installed = s.installed := by
  unfold activateLater deactivateLater
  cases find ps s r <;> exact ⟨rfl, rfl⟩

theorem pa_installed (w : World) (ps : Objs) (x : Str → Bool) (l : List Str) (s : St) :
    (pendingActivations w ps x l s).2.installed = s.installed := by
  induction l generalizing s with
  | nil => rfl
  | cons n l ih =>
    simp only [pendingActivations]
    split
    · exact ih _
    · have := act_installed w ps (.name n) (x n) { s with pendAct := s.pendAct.filter (fun m => !(m == n)) }
      generalize activate w ps (.name n) (x n) { s with pendAct := s.pendAct.filter (fun m => !(m == n)) } = R at this ⊢
      obtain ⟨r, s1⟩ := R
      cases r <;> first | exact (ih s1).trans this | exact this

theorem pd_installed (ps : Objs) (x : Str → Bool) (l : List Str) (s : St) :
    (pendingDeactivations ps x l s).2.installed = s.installed := by
  induction l generalizing s with
  | nil => rfl
  | cons n l ih =>
    simp only [pendingDeactivations]
    split
    · have := de_installed ps (.name n) (x n) { s with pendDeact := s.pendDeact.filter (fun m => !(m == n)) }
      generalize deactivate ps (.name n) (x n) { s with pendDeact := s.pendDeact.filter (fun m => !(m == n)) } = R at this ⊢
      obtain ⟨r, s1⟩ := R
      cases r <;> first | exact (ih s1).trans this | exact this
    · exact ih _

theorem ap_installed (w : World) (ps : Objs) (a d : Str → Bool) (oA oD : List Str) (s : St) :
    (activatePending w ps a d oA oD s).2.installed = s.installed := by
  unfold activatePending
  have h1 := pa_installed w ps a oA s
  generalize pendingActivations w ps a oA s = R at h1 ⊢
  obtain ⟨r, s1⟩ := R
  cases r <;> first | exact (pd_installed ps d oD s1).trans h1 | exact h1

/-- Uninstalling does to the manager what it does in the model without configuration. -/
theorem uninstall_st (ps : Objs) (r : Ref) (x : Bool) (s : CSt) :
    (uninstall ps r x s).1 = (Plug.uninstall ps r x s.st).1 ∧ (uninstall ps r x s).2.st = (Plug.uninstall ps r x s.st).2 := by
  unfold uninstall Plug.uninstall
  cases find ps s.st r with
  | none => exact ⟨rfl, rfl⟩
  | some o =>
    simp only
    generalize deactivate ps (.obj o) x s.st = R
    obtain ⟨r, t⟩ := R
    cases r <;> exact ⟨rfl, rfl⟩

/-- So does installing. -/
theorem install_st (merge : Sec → Sec → Sec) (w : World) (ps : Objs) (c : Conf) (o : Nat) (a l i x d : Bool) (s : CSt) :
    (install merge w ps c o a l i x d s).1 = (Plug.install w ps o a l i x d s.st).1 ∧
    (install merge w ps c o a l i x d s).2.st = (Plug.install w ps o a l i x d s.st).2 := by
  unfold install Plug.install
  split
  · exact ⟨rfl, rfl⟩
  split
  · exact ⟨rfl, rfl⟩
  simp only
  generalize ({ s.st with
      installed := dictSet (ps o).name (o, i) s.st.installed
      cmdline := dictSet (norm (ps o).name) (ps o).name s.st.cmdline } : St) = s1
  generalize configure merge ps c o s.cfg = cf
  cases a with
  | false => cases l <;> exact ⟨rfl, rfl⟩
  | true =>
    rw [if_pos rfl, if_pos rfl]
    generalize activate w ps (.name (ps o).name) x s1 = R
    obtain ⟨r, t⟩ := R
    have hu := uninstall_st ps (.obj o) d { st := t, cfg := cf }
    cases r <;> simp only
    · cases l <;> exact ⟨rfl, rfl⟩
    · exact ⟨trivial, trivial⟩
    · exact ⟨trivial, trivial⟩
    · exact ⟨trivial, trivial⟩
    · simp only at hu
      generalize uninstall ps (.obj o) d { st := t, cfg := cf } = R1 at hu ⊢
      generalize Plug.uninstall ps (.obj o) d t = R2 at hu ⊢
      obtain ⟨r1, t1⟩ := R1
      obtain ⟨r2, t2⟩ := R2
      obtain ⟨h1, h2⟩ := hu
      simp only at h1 h2
      subst h1 h2
      cases r1 <;> exact ⟨rfl, rfl⟩
    · exact ⟨trivial, trivial⟩

/-- What uninstalling does to the configuration. -/
theorem uninstall_cfg (ps : Objs) (r : Ref) (x : Bool) (s : CSt) :
    ((uninstall ps r x s).1 ≠ .ok ∧ (uninstall ps r x s).1 ≠ .incompatible ∧ (uninstall ps r x s).2.cfg = s.cfg ∧
      (uninstall ps r x s).2.st.installed = s.st.installed) ∨
    ∃ o, find ps s.st r = some o ∧ (uninstall ps r x s).1 = .ok ∧ (uninstall ps r x s).2.cfg = dictPop (cfgName (ps o).name) s.cfg ∧
      (uninstall ps r x s).2.st.installed = dictPop (ps o).name s.st.installed := by
  unfold uninstall
  cases hf : find ps s.st r with
  | none => exact .inl ⟨by simp, by simp, rfl, rfl⟩
  | some o =>
    simp only
    have hi := de_installed ps (.obj o) x s.st
    have hn : (deactivate ps (.obj o) x s.st).1 = .ok ∨ (deactivate ps (.obj o) x s.st).1 = .userError ∨
        (deactivate ps (.obj o) x s.st).1 = .unknownPlugin := by
      rcases deactivate_cases ps (.obj o) x s.st with ⟨-, e⟩ | ⟨o, -, ⟨-, e⟩ | ⟨-, e⟩⟩ <;> rw [e]
      · simp
      · cases x <;> simp
      · simp
    generalize deactivate ps (.obj o) x s.st = R at hi hn ⊢
    obtain ⟨r, t⟩ := R
    simp only at hi hn
    rcases hn with rfl | rfl | rfl
    · exact .inr ⟨o, rfl, rfl, rfl, by show dictPop _ t.installed = _; rw [hi]⟩
    · exact .inl ⟨by simp, by simp, rfl, hi⟩
    · exact .inl ⟨by simp, by simp, rfl, hi⟩

/-- What installing does to the configuration. -/
theorem install_cfg (merge : Sec → Sec → Sec) (w : World) (ps : Objs) (c : Conf) (o : Nat) (a l i x d : Bool) (s : CSt) :
    (((ps o).isPlugin = false ∨ (ps o).name.all legalChar = false) ∧ (install merge w ps c o a l i x d s).2 = s ∧
      ((install merge w ps c o a l i x d s).1 = .notAPlugin ∨ (install merge w ps c o a l i x d s).1 = .illegalName)) ∨
    ((install merge w ps c o a l i x d s).2.cfg = configure merge ps c o s.cfg ∧
      (install merge w ps c o a l i x d s).2.st.installed = dictSet (ps o).name (o, i) s.st.installed ∧
      (install merge w ps c o a l i x d s).1 ≠ .incompatible) ∨
    ((install merge w ps c o a l i x d s).2.cfg = dictPop (cfgName (ps o).name) (configure merge ps c o s.cfg) ∧
      (install merge w ps c o a l i x d s).2.st.installed = dictPop (ps o).name (dictSet (ps o).name (o, i) s.st.installed) ∧
      (install merge w ps c o a l i x d s).1 = .incompatible) := by
  unfold install
  split
  · rename_i h
    exact .inl ⟨.inl (by simpa using h), rfl, .inl rfl⟩
  split
  · rename_i h
    exact .inl ⟨.inr (by simpa using h), rfl, .inr rfl⟩
  simp only
  generalize hs1 : ({ s.st with
      installed := dictSet (ps o).name (o, i) s.st.installed
      cmdline := dictSet (norm (ps o).name) (ps o).name s.st.cmdline } : St) = s1
  have h0 : s1.installed = dictSet (ps o).name (o, i) s.st.installed := by rw [← hs1]
  rw [← h0]
  generalize configure merge ps c o s.cfg = cf
  have hlate : ∀ t : St, t.installed = s1.installed → ∀ l : Bool,
      (Prod.snd (if l = true then ((activateLater ps (.name (ps o).name) t).1, ({ st := (activateLater ps (.name (ps o).name) t).2, cfg := cf } : CSt))
        else (Res.ok, { st := t, cfg := cf }))).cfg = cf ∧
      (Prod.snd (if l = true then ((activateLater ps (.name (ps o).name) t).1, ({ st := (activateLater ps (.name (ps o).name) t).2, cfg := cf } : CSt))
        else (Res.ok, { st := t, cfg := cf }))).st.installed = s1.installed ∧
      (Prod.fst (if l = true then ((activateLater ps (.name (ps o).name) t).1, ({ st := (activateLater ps (.name (ps o).name) t).2, cfg := cf } : CSt))
        else (Res.ok, { st := t, cfg := cf }))) ≠ .incompatible := by
    intro t ht l
    cases l
    · exact ⟨rfl, ht, by simp⟩
    · refine ⟨rfl, (later_installed ps _ t).1.trans ht, ?_⟩
      rw [if_pos rfl]
      simp only [activateLater]
      cases find ps t (.name (ps o).name) <;> simp
  cases a with
  | false => exact .inr (.inl (hlate s1 rfl l))
  | true =>
    rw [if_pos rfl]
    have hi := act_installed w ps (.name (ps o).name) x s1
    have hres : ∀ r, (activate w ps (.name (ps o).name) x s1).1 = r → r = .ok ∨ r = .unknownPlugin ∨ r = .userError ∨ r = .incompatible := by
      intro r hr
      rcases activate_cases w ps (.name (ps o).name) x s1 with ⟨-, e⟩ | ⟨o, -, ⟨-, e⟩ | ⟨-, -, e⟩ | ⟨-, -, e⟩⟩ <;> rw [e] at hr <;> simp only at hr <;>
        subst hr <;> simp
    generalize activate w ps (.name (ps o).name) x s1 = R at hi hres ⊢
    obtain ⟨r, t⟩ := R
    simp only at hi
    rcases hres _ rfl with h | h | h | h <;> simp only at h <;> subst h
    · exact .inr (.inl (hlate t hi l))
    · exact .inr (.inl ⟨rfl, hi, by simp⟩)
    · exact .inr (.inl ⟨rfl, hi, by simp⟩)
    · simp only
      have hu := uninstall_cfg ps (.obj o) d { st := t, cfg := cf }
      have hfo : ∀ o', find ps t (.obj o) = some o' → o' = o := by
        intro o' h
        simp only [find] at h
        split at h
        · cases h; rfl
        · cases h
      generalize uninstall ps (.obj o) d { st := t, cfg := cf } = R at hu ⊢
      obtain ⟨r, t'⟩ := R
      rcases hu with ⟨h1, h2, h3, h4⟩ | ⟨o', h1, h2, h3, h4⟩
      · simp only at h1 h2 h3 h4
        have h5 : t'.st.installed = s1.installed := h4.trans hi
        cases r <;> first | exact absurd rfl h1 | exact absurd rfl h2 | exact .inr (.inl ⟨h3, h5, by simp⟩)
      · simp only at h1 h2 h3 h4
        subst h2
        rw [hfo _ h1] at h3 h4
        exact .inr (.inr ⟨h3, h4.trans (by rw [hi]), rfl⟩)

theorem get_configure (merge : Sec → Sec → Sec) (ps : Objs) (c : Conf) (o : Nat) (cfg : List (Str × Sec)) (k : Str) :
    dictGet k (configure merge ps c o cfg) =
      if k = cfgName (ps o).name then
        match c.of o with
        | none => dictGet k cfg
        | some d => some (match dictGet k cfg with | some x => merge x d | none => d)
      else dictGet k cfg := by
  unfold configure
  cases c.of o with
  | none => simp
  | some d =>
    simp only
    rw [dictGet_set]
    split
    · rename_i h; subst h; rfl
    · rfl

theorem get_assign (sec key : Str) (v : Nat) (cfg : List (Str × Sec)) (k : Str) :
    dictGet k (assign sec key v cfg) =
      if k = sec then (dictGet k cfg).map (fun x => if (dictGet key x).isSome then dictSet key v x else x) else dictGet k cfg := by
  unfold assign
  by_cases h : k = sec
  · subst h
    rw [if_pos rfl]
    cases hg : dictGet k cfg with
    | none => simp [hg]
    | some x =>
      simp only [Option.map_some]
      split
      · rw [dictGet_set, if_pos rfl]
      · exact hg
  · rw [if_neg h]
    cases dictGet sec cfg with
    | none => rfl
    | some x =>
      simp only
      split
      · rw [dictGet_set, if_neg h]
      · rfl

end Slash.PConf
