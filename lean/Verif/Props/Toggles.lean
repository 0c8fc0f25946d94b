import Verif.Model.Toggles
import Verif.Lemmas.Util

namespace Slash.Tog

/-- Registrations belong to active plugins, and active plugins have theirs; toggles are on only for plugins that were activated (`A`). -/
structure Inv (env : Env) (A : Nat → Prop) (s : St) : Prop where
  starts : ∀ p ∈ s.active, ∀ r ∈ startRegs env p, r ∈ s.starts
  ends : ∀ p, p ∈ s.ends ↔ p ∈ s.active ∧ env.hasEnd p = true
  real : ∀ r ∈ s.starts, r.noop = false → r.plugin ∈ s.active
  known : ∀ r ∈ s.starts, A r.plugin
  on : ∀ p ∈ s.on, A p
  nodup : s.on.Nodup

theorem Inv.init (env : Env) (A : Nat → Prop) : Inv env A {} :=
  ⟨by simp, by simp, by simp, by simp, by simp, by simp⟩

theorem mem_startRegs {env : Env} {p : Nat} {r : Reg} (h : r ∈ startRegs env p) : r.plugin = p := by
  unfold startRegs at h
  split at h
  · simp at h; rw [h]
  · split at h
    · simp at h; rw [h]
    · cases h

theorem mem_endRegs {env : Env} {p q : Nat} : q ∈ endRegs env p ↔ q = p ∧ env.hasEnd p = true := by
  unfold endRegs
  split <;> simp_all

theorem Inv.op {env : Env} {A : Nat → Prop} {s : St} (h : Inv env A s) (op : POp) (ho : ∀ p, op = .activate p → A p) : Inv env A (op.run env s) := by
  cases op with
  | activate p =>
    have hact : ∀ q, q ∈ (POp.run env (.activate p) s).active ↔ q = p ∨ q ∈ s.active := by
      intro q
      simp only [POp.run]
      split
      · constructor
        · exact Or.inr
        · rintro (rfl | h) <;> assumption
      · simp [or_comm]
    refine ⟨?_, ?_, ?_, ?_, h.on, h.nodup⟩
    · intro q hq r hr
      simp only [POp.run, List.mem_append]
      rcases (hact q).1 hq with rfl | hq
      · exact Or.inr hr
      · exact Or.inl (h.starts q hq r hr)
    · intro q
      rw [hact]
      simp only [POp.run, List.mem_append, mem_endRegs, h.ends]
      constructor
      · rintro (⟨h1, h2⟩ | ⟨rfl, h2⟩)
        · exact ⟨Or.inr h1, h2⟩
        · exact ⟨Or.inl rfl, h2⟩
      · rintro ⟨rfl | h1, h2⟩
        · exact Or.inr ⟨rfl, h2⟩
        · exact Or.inl ⟨h1, h2⟩
    · intro r hr hn
      rw [hact]
      simp only [POp.run, List.mem_append] at hr
      rcases hr with hr | hr
      · exact Or.inr (h.real r hr hn)
      · exact Or.inl (mem_startRegs hr)
    · intro r hr
      simp only [POp.run, List.mem_append] at hr
      rcases hr with hr | hr
      · exact h.known r hr
      · rw [mem_startRegs hr]; exact ho p rfl
  | deactivate p =>
    simp only [POp.run]
    split
    · refine ⟨?_, ?_, ?_, ?_, h.on, h.nodup⟩
      · intro q hq r hr
        simp only [List.mem_filter, bne_iff_ne] at hq ⊢
        refine ⟨h.starts q hq.1 r hr, ?_⟩
        rw [mem_startRegs hr]
        simp [hq.2]
      · intro q
        simp only [List.mem_filter, bne_iff_ne, h.ends]
        constructor
        · rintro ⟨⟨a, b⟩, c⟩; exact ⟨⟨a, c⟩, b⟩
        · rintro ⟨⟨a, c⟩, b⟩; exact ⟨⟨a, b⟩, c⟩
      · intro r hr hn
        simp only [List.mem_filter, Bool.or_eq_true, bne_iff_ne, hn, Bool.false_eq_true, or_false] at hr ⊢
        exact ⟨h.real r hr.1 hn, hr.2⟩
      · intro r hr
        exact h.known r (List.mem_filter.1 hr).1
    · exact h

theorem Inv.ops {env : Env} {A : Nat → Prop} (ops : List POp) : ∀ {s : St}, Inv env A s → (∀ p, .activate p ∈ ops → A p) → Inv env A (runOps env ops s) := by
  induction ops with
  | nil => intro s h _; exact h
  | cons op ops ih =>
    intro s h ho
    exact ih (h.op op (fun p e => ho p (e ▸ List.mem_cons_self ..))) (fun p hp => ho p (List.mem_cons_of_mem _ hp))

theorem runOps_on (env : Env) (ops : List POp) : ∀ s : St, (runOps env ops s).on = s.on := by
  induction ops with
  | nil => intro s; rfl
  | cons op ops ih =>
    intro s
    refine (ih _).trans ?_
    cases op with
    | activate p => rfl
    | deactivate p => simp only [POp.run]; split <;> rfl

/-- What calling `session_start` does. -/
theorem callStarts_spec (env : Env) (raises : Nat → Bool) (rs : List Reg) : ∀ on : List Nat,
    let x := callStarts env raises rs on
    (on.Nodup → x.1.Nodup) ∧ (∀ p ∈ on, p ∈ x.1) ∧ (∀ p ∈ x.1, p ∈ on ∨ ∃ r ∈ rs, r.plugin = p) ∧
    (∀ p, .start p ∈ x.2.1 → ⟨p, false⟩ ∈ rs) ∧ (∀ p, .stop p ∉ x.2.1) ∧
    (x.2.2 = false → (∀ r ∈ rs, r.plugin ∈ x.1) ∧ x.2.1 = (rs.filter (fun r => !r.noop)).map (fun r => .start r.plugin)) ∧
    (env.defer = true → x.2.1 = (rs.filter (fun r => !r.noop)).map (fun r => .start r.plugin)) ∧
    (x.2.2 = true ↔ ∃ r ∈ rs, r.noop = false ∧ raises r.plugin = true) := by
  induction rs with
  | nil => intro on; simp [callStarts]
  | cons r rs ih =>
    intro on
    simp only [callStarts]
    generalize hon : (if (!r.noop && raises r.plugin) && !env.onIfRaises then on else if r.plugin ∈ on then on else on ++ [r.plugin]) = on'
    have hmono : ∀ p ∈ on, p ∈ on' := by
      intro p hp; rw [← hon]; split
      · exact hp
      · split
        · exact hp
        · exact List.mem_append_left _ hp
    have hnew : ∀ p ∈ on', p ∈ on ∨ r.plugin = p := by
      intro p hp; rw [← hon] at hp; split at hp
      · exact Or.inl hp
      · split at hp
        · exact Or.inl hp
        · rcases List.mem_append.1 hp with hp | hp
          · exact Or.inl hp
          · exact Or.inr (List.mem_singleton.1 hp).symm
    have hnd : on.Nodup → on'.Nodup := by
      intro h; rw [← hon]; split
      · exact h
      · split
        · exact h
        · rename_i hn
          exact List.nodup_append.2 ⟨h, by simp, by intro a ha b hb e; rw [List.mem_singleton.1 hb] at e; exact hn (e ▸ ha)⟩
    have hin : (!r.noop && raises r.plugin) = false → r.plugin ∈ on' := by
      intro hb; rw [← hon, hb]; simp only [Bool.false_and, Bool.false_eq_true, if_false]
      split
      · assumption
      · simp
    have H := ih on'
    simp only at H
    obtain ⟨h1, h2, h3, h4, h5, h6, h7, h8⟩ := H
    have hcall : ∀ c ∈ (if r.noop = true then [] else [Call.start r.plugin]), c = .start r.plugin ∧ r.noop = false := by
      intro c hc
      split at hc
      · cases hc
      · exact ⟨List.mem_singleton.1 hc, by simp_all⟩
    have hfil : ((r :: rs).filter (fun r => !r.noop)).map (fun r => Call.start r.plugin) =
        (if r.noop = true then [] else [Call.start r.plugin]) ++ (rs.filter (fun r => !r.noop)).map (fun r => Call.start r.plugin) := by
      cases hn : r.noop <;> simp [hn]
    have hr : r.noop = false → (⟨r.plugin, false⟩ : Reg) = r := by intro h; cases r; simp_all
    by_cases hb : ((!r.noop && raises r.plugin) && !env.defer) = true
    · rw [if_pos hb]
      simp only [Bool.and_eq_true, Bool.not_eq_true'] at hb
      refine ⟨hnd, hmono, ?_, ?_, ?_, by simp, by simp [hb.2], ?_⟩
      · intro p hp
        rcases hnew p hp with h | h
        · exact Or.inl h
        · exact Or.inr ⟨r, List.mem_cons_self .., h⟩
      · intro p hp
        obtain ⟨e, hn⟩ := hcall _ hp
        cases e
        rw [hr hn]; exact List.mem_cons_self ..
      · intro p hp
        cases (hcall _ hp).1
      · simp only [true_iff]
        exact ⟨r, List.mem_cons_self .., hb.1.1, hb.1.2⟩
    · rw [if_neg hb]
      refine ⟨fun h => h1 (hnd h), fun p hp => h2 p (hmono p hp), ?_, ?_, ?_, ?_, ?_, ?_⟩
      · intro p hp
        rcases h3 p hp with h | ⟨q, hq, e⟩
        · rcases hnew p h with h | h
          · exact Or.inl h
          · exact Or.inr ⟨r, List.mem_cons_self .., h⟩
        · exact Or.inr ⟨q, List.mem_cons_of_mem _ hq, e⟩
      · intro p hp
        rcases List.mem_append.1 hp with hp | hp
        · obtain ⟨e, hn⟩ := hcall _ hp
          cases e
          rw [hr hn]; exact List.mem_cons_self ..
        · exact List.mem_cons_of_mem _ (h4 p hp)
      · intro p hp
        rcases List.mem_append.1 hp with hp | hp
        · cases (hcall _ hp).1
        · exact h5 p hp
      · intro hf
        rw [Bool.or_eq_false_iff] at hf
        obtain ⟨a, b⟩ := h6 hf.2
        refine ⟨?_, by rw [hfil, b]⟩
        intro q hq
        rcases List.mem_cons.1 hq with rfl | hq
        · exact h2 _ (hin hf.1)
        · exact a q hq
      · intro hd
        rw [hfil, h7 hd]
      · rw [Bool.or_eq_true, h8]
        simp only [Bool.and_eq_true, Bool.not_eq_true']
        constructor
        · rintro (⟨a, b⟩ | ⟨q, hq, a, b⟩)
          · exact ⟨r, List.mem_cons_self .., a, b⟩
          · exact ⟨q, List.mem_cons_of_mem _ hq, a, b⟩
        · rintro ⟨q, hq, a, b⟩
          rcases List.mem_cons.1 hq with rfl | hq
          · exact Or.inl ⟨a, b⟩
          · exact Or.inr ⟨q, hq, a, b⟩

/-- What calling `session_end` does. -/
theorem callEnds_spec (env : Env) (raises : Nat → Bool) (ps : List Nat) : ∀ on : List Nat,
    let x := callEnds env raises ps on
    (on.Nodup → x.1.Nodup) ∧ (∀ p ∈ x.1, p ∈ on) ∧ (∀ p, .start p ∉ x.2) ∧ (∀ p, .stop p ∈ x.2 → p ∈ ps ∧ p ∈ on) ∧
    (env.offIfRaises = true → ∀ p, x.2.count (.stop p) ≤ 1) ∧
    ((env.defer = true ∨ ∀ p, raises p = false) → ∀ p ∈ ps, p ∈ on → .stop p ∈ x.2) := by
  induction ps with
  | nil => intro on; simp [callEnds]
  | cons q ps ih =>
    intro on
    simp only [callEnds]
    by_cases hq : q ∈ on
    · rw [if_pos hq]
      generalize hon : (if raises q && !env.offIfRaises then on else on.filter (· != q)) = on'
      have hsub : ∀ p ∈ on', p ∈ on := by
        intro p hp; rw [← hon] at hp; split at hp
        · exact hp
        · exact (List.mem_filter.1 hp).1
      have hnd : on.Nodup → on'.Nodup := by
        intro h; rw [← hon]; split
        · exact h
        · exact h.filter _
      have hkeep : ∀ p ∈ on, p ≠ q → p ∈ on' := by
        intro p hp hne; rw [← hon]; split
        · exact hp
        · exact List.mem_filter.2 ⟨hp, by simpa using hne⟩
      have hgone : env.offIfRaises = true → q ∉ on' := by
        intro h; rw [← hon]; simp [h]
      have H := ih on'
      simp only at H
      obtain ⟨h1, h2, h3, h4, h5, h6⟩ := H
      by_cases hb : (raises q && !env.defer) = true
      · rw [if_pos hb]
        simp only [Bool.and_eq_true, Bool.not_eq_true'] at hb
        refine ⟨hnd, hsub, by simp, ?_, ?_, ?_⟩
        · intro p hp
          simp only [List.mem_singleton, Call.stop.injEq] at hp
          subst hp
          exact ⟨List.mem_cons_self .., hq⟩
        · intro _ p
          simp only [List.count_cons, List.count_nil]
          split <;> omega
        · rintro (h | h)
          · rw [hb.2] at h; cases h
          · rw [h q] at hb; cases hb.1
      · rw [if_neg hb]
        refine ⟨fun h => h1 (hnd h), fun p hp => hsub p (h2 p hp), ?_, ?_, ?_, ?_⟩
        · intro p hp
          rcases List.mem_cons.1 hp with e | hp
          · cases e
          · exact h3 p hp
        · intro p hp
          rcases List.mem_cons.1 hp with e | hp
          · cases e; exact ⟨List.mem_cons_self .., hq⟩
          · exact ⟨List.mem_cons_of_mem _ (h4 p hp).1, hsub p (h4 p hp).2⟩
        · intro ho p
          rw [List.count_cons]
          by_cases e : q = p
          · subst e
            have : (callEnds env raises ps on').2.count (.stop q) = 0 :=
              List.count_eq_zero.2 (fun hm => hgone ho (h4 q hm).2)
            rw [this]; simp
          · have := h5 ho p
            have hne : (Call.stop q == Call.stop p) = false := by simpa using e
            rw [hne]; simpa using this
        · intro hd p hp hpo
          rcases List.mem_cons.1 hp with rfl | hp
          · exact List.mem_cons_self ..
          · by_cases e : p = q
            · subst e; exact List.mem_cons_self ..
            · exact List.mem_cons_of_mem _ (h6 hd p hp (hkeep p hpo e))
    · rw [if_neg hq]
      obtain ⟨h1, h2, h3, h4, h5, h6⟩ := ih on
      refine ⟨h1, h2, h3, ?_, h5, ?_⟩
      · intro p hp
        exact ⟨List.mem_cons_of_mem _ (h4 p hp).1, (h4 p hp).2⟩
      · intro hd p hp hpo
        rcases List.mem_cons.1 hp with rfl | hp
        · exact absurd hpo hq
        · exact h6 hd p hp hpo

/-- Orders of callbacks lose and add none. -/
structure Orders (env : Env) : Prop where
  starts : ∀ l, (env.orderS l).Perm l
  ends : ∀ l, (env.orderE l).Perm l

theorem Inv.withOn {env : Env} {A : Nat → Prop} {s : St} (h : Inv env A s) (on : List Nat) (h1 : ∀ p ∈ on, A p) (h2 : on.Nodup) : Inv env A { s with on := on } :=
  ⟨h.starts, h.ends, h.real, h.known, h1, h2⟩

theorem Inv.session {env : Env} {A : Nat → Prop} (ho : Orders env) {s : St} (h : Inv env A s) (x : Session) (hx : ∀ p, .activate p ∈ x.before ++ x.during → A p) :
    Inv env A (Tog.session env x s).1 := by
  have h0 := h.ops x.before (fun p hp => hx p (List.mem_append_left _ hp))
  unfold Tog.session
  simp only
  generalize runOps env x.before s = s0 at h0 ⊢
  split
  · exact h0
  · have S := callStarts_spec env x.startRaises (env.orderS s0.starts) s0.on
    generalize callStarts env x.startRaises (env.orderS s0.starts) s0.on = c at S ⊢
    obtain ⟨on, calls, raised⟩ := c
    simp only at S ⊢
    have h1 : Inv env A { s0 with on := on } := by
      refine h0.withOn on ?_ (S.1 h0.nodup)
      intro p hp
      rcases S.2.2.1 p hp with hp | ⟨r, hr, rfl⟩
      · exact h0.on p hp
      · exact h0.known r ((ho.starts _).mem_iff.1 hr)
    split
    · exact h1
    · have h2 : Inv env A (if x.afterRaises then { s0 with on := on } else runOps env x.during { s0 with on := on }) := by
        split
        · exact h1
        · exact h1.ops x.during (fun p hp => hx p (List.mem_append_right _ hp))
      generalize (if x.afterRaises then { s0 with on := on } else runOps env x.during { s0 with on := on }) = s2 at h2 ⊢
      have E := callEnds_spec env x.endRaises (env.orderE s2.ends) s2.on
      generalize callEnds env x.endRaises (env.orderE s2.ends) s2.on = c at E ⊢
      obtain ⟨on', calls'⟩ := c
      simp only at E ⊢
      exact h2.withOn on' (fun p hp => h2.on p (E.2.1 p hp)) (E.1 h2.nodup)

theorem Inv.sessions {env : Env} {A : Nat → Prop} (ho : Orders env) (xs : List Session) : ∀ {s : St}, Inv env A s → (∀ x ∈ xs, ∀ p, .activate p ∈ x.before ++ x.during → A p) →
    Inv env A (Tog.sessions env xs s) := by
  induction xs with
  | nil => intro s h _; exact h
  | cons x xs ih =>
    intro s h hx
    exact ih (h.session ho x (hx x (List.mem_cons_self ..))) (fun y hy => hx y (List.mem_cons_of_mem _ hy))

/-- The calls of a session: those of `session_start`, then those of `session_end`, the latter only if no `session_start` raised. -/
theorem session_calls {env : Env} (ho : Orders env) (x : Session) (s : St) (hi : Inv env (fun _ => True) s) :
    (∃ p, .stop p ∈ (session env x s).2) → x.beforeRaises = false ∧ ∀ p ∈ (runOps env x.before s).active, env.hasStart p = true → x.startRaises p = false := by
  have h0 := hi.ops x.before (fun _ _ => trivial)
  unfold session
  simp only
  generalize runOps env x.before s = s0 at h0 ⊢
  by_cases hb : x.beforeRaises = true
  · rw [if_pos hb]; rintro ⟨p, hp⟩; cases hp
  · rw [if_neg hb]
    have S := callStarts_spec env x.startRaises (env.orderS s0.starts) s0.on
    generalize callStarts env x.startRaises (env.orderS s0.starts) s0.on = c at S ⊢
    obtain ⟨on, calls, raised⟩ := c
    simp only at S ⊢
    split
    · rintro ⟨p, hp⟩; exact absurd hp (S.2.2.2.2.1 p)
    · rename_i hr
      intro _
      refine ⟨by simpa using hb, ?_⟩
      intro p hp hs
      cases hrp : x.startRaises p with
      | false => rfl
      | true =>
        refine absurd (S.2.2.2.2.2.2.2.2 ⟨⟨p, false⟩, ?_, rfl, hrp⟩) hr
        refine (ho.starts _).mem_iff.2 (h0.starts p hp _ ?_)
        simp [startRegs, hs]

/-- C176: if the session could not be started — `before_session_start` raised, or `session_start` of some plugin — no plugin is told that it ends. -/
theorem C176_not_started (env : Env) (ho : Orders env) (xs : List Session) (x : Session)
    (h : x.beforeRaises = true ∨ ∃ p ∈ (runOps env x.before (sessions env xs {})).active, env.hasStart p = true ∧ x.startRaises p = true) (p : Nat) :
    .stop p ∉ (session env x (sessions env xs {})).2 := by
  intro hp
  obtain ⟨h1, h2⟩ := session_calls ho x _ ((Inv.init env _).sessions ho xs (fun _ _ _ _ => trivial)) ⟨p, hp⟩
  rcases h with h | ⟨q, hq, hs, hr⟩
  · rw [h1] at h; cases h
  · rw [h2 q hq hs] at hr; cases hr

/-- C176: in one session no plugin is told twice that it ends, also if it was activated twice. -/
theorem C176_once (env : Env) (hoff : env.offIfRaises = true) (x : Session) (s : St) (p : Nat) : (session env x s).2.count (.stop p) ≤ 1 := by
  unfold session
  simp only
  generalize runOps env x.before s = s0
  split
  · simp
  · have S := callStarts_spec env x.startRaises (env.orderS s0.starts) s0.on
    generalize callStarts env x.startRaises (env.orderS s0.starts) s0.on = c at S ⊢
    obtain ⟨on, calls, raised⟩ := c
    simp only at S ⊢
    have h0 : calls.count (.stop p) = 0 := List.count_eq_zero.2 (S.2.2.2.2.1 p)
    split
    · simp only; omega
    · generalize (if x.afterRaises then { s0 with on := on } else runOps env x.during { s0 with on := on }) = s2
      have E := callEnds_spec env x.endRaises (env.orderE s2.ends) s2.on
      generalize callEnds env x.endRaises (env.orderE s2.ends) s2.on = c at E ⊢
      obtain ⟨on', calls'⟩ := c
      simp only at E ⊢
      rw [List.count_append, h0, Nat.zero_add]
      exact E.2.2.2.2.1 hoff p

theorem active_kept (env : Env) (p : Nat) (ops : List POp) : ∀ s : St, p ∈ s.active → .deactivate p ∉ ops → p ∈ (runOps env ops s).active := by
  induction ops with
  | nil => intro s h _; exact h
  | cons op ops ih =>
    intro s h hn
    refine ih _ ?_ (fun hm => hn (List.mem_cons_of_mem _ hm))
    cases op with
    | activate q =>
      simp only [POp.run]; split
      · exact h
      · exact List.mem_append_left _ h
    | deactivate q =>
      simp only [POp.run]; split
      · have : p ≠ q := by rintro rfl; exact hn (List.mem_cons_self ..)
        simp [h, this]
      · exact h

theorem inactive_kept (env : Env) (p : Nat) (ops : List POp) : ∀ s : St, p ∉ s.active → .activate p ∉ ops → p ∉ (runOps env ops s).active := by
  induction ops with
  | nil => intro s h _; exact h
  | cons op ops ih =>
    intro s h hn
    refine ih _ ?_ (fun hm => hn (List.mem_cons_of_mem _ hm))
    cases op with
    | activate q =>
      simp only [POp.run]; split
      · exact h
      · have : p ≠ q := by rintro rfl; exact hn (List.mem_cons_self ..)
        simp [h, this]
    | deactivate q =>
      simp only [POp.run]; split
      · intro hm; exact h (List.mem_filter.1 hm).1
      · exact h

/-- C176: a plugin with `session_end` that is active when a session starts and stays so is told that it ends, whatever happened in the process before, if the session could be
started; also if its own or another plugin's `session_end` raises. -/
theorem C176_told (env : Env) (ho : Orders env) (xs : List Session) (x : Session) (p : Nat) (hd : env.defer = true ∨ ∀ q, x.endRaises q = false) (he : env.hasEnd p = true)
    (ha : p ∈ (runOps env x.before (sessions env xs {})).active) (hk : .deactivate p ∉ x.during) (hb : x.beforeRaises = false)
    (hs : ∀ q, env.hasStart q = true → x.startRaises q = false) : .stop p ∈ (session env x (sessions env xs {})).2 := by
  have h0 : Inv env (fun _ => True) (runOps env x.before (sessions env xs {})) :=
    ((Inv.init env _).sessions ho xs (fun _ _ _ _ => trivial)).ops x.before (fun _ _ => trivial)
  have hreal : ∀ r ∈ (runOps env x.before (sessions env xs {})).starts, r.noop = false → env.hasStart r.plugin = true := by
    have step : ∀ (ops : List POp) (s : St), (∀ r ∈ s.starts, r.noop = false → env.hasStart r.plugin = true) → ∀ r ∈ (runOps env ops s).starts, r.noop = false → env.hasStart r.plugin = true := by
      intro ops
      induction ops with
      | nil => intro s h; exact h
      | cons op ops ih =>
        intro s h
        refine ih _ ?_
        intro r hr hn
        cases op with
        | activate q =>
          simp only [POp.run, List.mem_append] at hr
          rcases hr with hr | hr
          · exact h r hr hn
          · unfold startRegs at hr
            split at hr
            · simp at hr; subst hr; assumption
            · split at hr
              · simp at hr; subst hr; cases hn
              · cases hr
        | deactivate q =>
          simp only [POp.run] at hr
          split at hr
          · exact h r (List.mem_filter.1 hr).1 hn
          · exact h r hr hn
    have all : ∀ (xs : List Session) (s : St), (∀ r ∈ s.starts, r.noop = false → env.hasStart r.plugin = true) → ∀ r ∈ (sessions env xs s).starts, r.noop = false → env.hasStart r.plugin = true := by
      intro xs
      induction xs with
      | nil => intro s h; exact h
      | cons y ys ih =>
        intro s h
        refine ih _ ?_
        have h1 := step y.before s h
        unfold session
        simp only
        split
        · exact h1
        · split
          · exact h1
          · split
            · exact h1
            · exact step y.during _ h1
    exact step x.before _ (all xs {} (by simp))
  unfold session
  simp only
  generalize runOps env x.before (sessions env xs {}) = s0 at h0 ha hreal ⊢
  rw [if_neg (by simp [hb])]
  have S := callStarts_spec env x.startRaises (env.orderS s0.starts) s0.on
  generalize callStarts env x.startRaises (env.orderS s0.starts) s0.on = c at S ⊢
  obtain ⟨on, calls, raised⟩ := c
  simp only at S ⊢
  have hr : raised = false := by
    cases raised with
    | false => rfl
    | true =>
      obtain ⟨r, hr, hn, hx⟩ := S.2.2.2.2.2.2.2.1 rfl
      rw [hs _ (hreal r ((ho.starts _).mem_iff.1 hr) hn)] at hx
      cases hx
  subst hr
  rw [if_neg (by simp)]
  have hon : p ∈ on := by
    obtain ⟨r, hm⟩ : ∃ r, r ∈ startRegs env p := by
      simp only [startRegs, he, if_true]
      split <;> exact ⟨_, List.mem_singleton.2 rfl⟩
    have := (S.2.2.2.2.2.1 rfl).1 r ((ho.starts _).mem_iff.2 (h0.starts p ha r hm))
    rwa [mem_startRegs hm] at this
  have h1 : Inv env (fun _ => True) { s0 with on := on } := h0.withOn on (fun _ _ => trivial) (S.1 h0.nodup)
  have h2 : Inv env (fun _ => True) (if x.afterRaises then { s0 with on := on } else runOps env x.during { s0 with on := on }) ∧
      p ∈ (if x.afterRaises then { s0 with on := on } else runOps env x.during { s0 with on := on }).active ∧
      (if x.afterRaises then { s0 with on := on } else runOps env x.during { s0 with on := on }).on = on := by
    split
    · exact ⟨h1, ha, rfl⟩
    · exact ⟨h1.ops x.during (fun _ _ => trivial), active_kept env p x.during _ ha hk, runOps_on env x.during _⟩
  generalize (if x.afterRaises then { s0 with on := on } else runOps env x.during { s0 with on := on }) = s2 at h2 ⊢
  have E := callEnds_spec env x.endRaises (env.orderE s2.ends) s2.on
  generalize callEnds env x.endRaises (env.orderE s2.ends) s2.on = c at E ⊢
  obtain ⟨on', calls'⟩ := c
  simp only at E ⊢
  refine List.mem_append_right _ (E.2.2.2.2.2 hd p ((ho.ends _).mem_iff.2 ((h2.1.ends p).2 ⟨h2.2.1, he⟩)) (by rw [h2.2.2]; exact hon))

/-- A plugin that is told that a session ends is active, and its toggle was on. -/
theorem stop_spec {env : Env} (ho : Orders env) {A : Nat → Prop} (x : Session) (s : St) (hi : Inv env A s) (p : Nat) (hp : .stop p ∈ (session env x s).2) :
    env.hasEnd p = true ∧ (x.afterRaises = true → p ∈ (runOps env x.before s).active) ∧
    (p ∈ (runOps env x.before s).active ∨ .activate p ∈ x.during) ∧
    (p ∈ (runOps env x.before s).on ∨ ∃ r ∈ (runOps env x.before s).starts, r.plugin = p) ∧
    ∀ q ∈ (runOps env x.before s).active, env.hasStart q = true → .start q ∈ (session env x s).2 := by
  have hi' : Inv env (fun _ => True) s := ⟨hi.starts, hi.ends, hi.real, fun _ _ => trivial, fun _ _ => trivial, hi.nodup⟩
  have h0 := hi'.ops x.before (fun _ _ => trivial)
  revert hp
  unfold session
  simp only
  generalize runOps env x.before s = s0 at h0 ⊢
  split
  · intro hp; cases hp
  · have S := callStarts_spec env x.startRaises (env.orderS s0.starts) s0.on
    generalize callStarts env x.startRaises (env.orderS s0.starts) s0.on = c at S ⊢
    obtain ⟨on, calls, raised⟩ := c
    simp only at S ⊢
    split
    · intro hp; exact absurd hp (S.2.2.2.2.1 p)
    · rename_i hr
      have h1 : Inv env (fun _ => True) { s0 with on := on } := h0.withOn on (fun _ _ => trivial) (S.1 h0.nodup)
      have h2 : Inv env (fun _ => True) (if x.afterRaises then { s0 with on := on } else runOps env x.during { s0 with on := on }) ∧
          (p ∈ (if x.afterRaises then { s0 with on := on } else runOps env x.during { s0 with on := on }).active →
            (x.afterRaises = true → p ∈ s0.active) ∧ (p ∈ s0.active ∨ .activate p ∈ x.during)) ∧
          (if x.afterRaises then { s0 with on := on } else runOps env x.during { s0 with on := on }).on = on := by
        split
        · exact ⟨h1, fun h => ⟨fun _ => h, Or.inl h⟩, rfl⟩
        · rename_i ha
          refine ⟨h1.ops x.during (fun _ _ => trivial), fun h => ⟨fun h => absurd h ha, ?_⟩, runOps_on env x.during _⟩
          by_cases h3 : p ∈ s0.active
          · exact Or.inl h3
          · by_cases h4 : .activate p ∈ x.during
            · exact Or.inr h4
            · exact absurd h (inactive_kept env p x.during { s0 with on := on } h3 h4)
      generalize (if x.afterRaises then { s0 with on := on } else runOps env x.during { s0 with on := on }) = s2 at h2 ⊢
      have E := callEnds_spec env x.endRaises (env.orderE s2.ends) s2.on
      generalize callEnds env x.endRaises (env.orderE s2.ends) s2.on = c at E ⊢
      obtain ⟨on', calls'⟩ := c
      simp only at E ⊢
      intro hp
      rcases List.mem_append.1 hp with hp | hp
      · exact absurd hp (S.2.2.2.2.1 p)
      · obtain ⟨ha, hb⟩ := E.2.2.2.1 p hp
        obtain ⟨hc, hd⟩ := (h2.1.ends p).1 ((ho.ends _).mem_iff.1 ha)
        refine ⟨hd, (h2.2.1 hc).1, (h2.2.1 hc).2, ?_, ?_⟩
        · rw [h2.2.2] at hb
          rcases S.2.2.1 p hb with h | ⟨r, hr, e⟩
          · exact Or.inl h
          · exact Or.inr ⟨r, (ho.starts _).mem_iff.1 hr, e⟩
        · intro q hq hst
          refine List.mem_append_left _ ?_
          rw [(S.2.2.2.2.2.1 (by simpa using hr)).2]
          refine List.mem_map.2 ⟨⟨q, false⟩, List.mem_filter.2 ⟨(ho.starts _).mem_iff.2 (h0.starts q hq _ ?_), rfl⟩, rfl⟩
          simp [startRegs, hst]

/-- C176: a plugin that was not activated while the session was running is told that it ends only if it was active when the session started; and then, if it has a method
`session_start`, this was called in this session. -/
theorem C176_only_partial (env : Env) (ho : Orders env) (xs : List Session) (x : Session) (p : Nat) (hn : .activate p ∉ x.during)
    (hp : .stop p ∈ (session env x (sessions env xs {})).2) :
    env.hasEnd p = true ∧ p ∈ (runOps env x.before (sessions env xs {})).active ∧ (env.hasStart p = true → .start p ∈ (session env x (sessions env xs {})).2) := by
  obtain ⟨h1, -, h3, -, h5⟩ := stop_spec (A := fun _ => True) ho x _ ((Inv.init env _).sessions ho xs (fun _ _ _ _ => trivial)) p hp
  have h4 : p ∈ (runOps env x.before (sessions env xs {})).active := h3.resolve_right hn
  exact ⟨h1, h4, h5 p h4⟩

/-- C176: a plugin that is activated for the first time while a session is running is not told that it ends. -/
theorem C176_late (env : Env) (ho : Orders env) (xs : List Session) (x : Session) (p : Nat) (hx : ∀ y ∈ xs, .activate p ∉ y.before ++ y.during) (hb : .activate p ∉ x.before) :
    .stop p ∉ (session env x (sessions env xs {})).2 := by
  intro hp
  have hi : Inv env (fun q => q ≠ p) (sessions env xs {}) :=
    (Inv.init env _).sessions ho xs (fun y hy q hq e => hx y hy (e ▸ hq))
  obtain ⟨-, -, -, h4, -⟩ := stop_spec ho x _ hi p hp
  have h0 := hi.ops x.before (fun q hq e => hb (e ▸ hq))
  rcases h4 with h | ⟨r, hr, e⟩
  · exact h0.on p h rfl
  · exact h0.known r hr e

theorem inactive_last (env : Env) (p : Nat) (a b : List POp) (s : St) (h : .activate p ∉ b) : p ∉ (runOps env (a ++ .deactivate p :: b) s).active := by
  have e : runOps env (a ++ .deactivate p :: b) s = runOps env b (POp.run env (.deactivate p) (runOps env a s)) := by
    simp only [runOps, List.foldl_append, List.foldl_cons]
  rw [e]
  refine inactive_kept env p b _ ?_ h
  simp only [POp.run]
  split
  · simp
  · assumption

/-- C176: a plugin that was deactivated before the session or while it was running, and not activated again, is not told that it ends. -/
theorem C176_deactivated (env : Env) (ho : Orders env) (xs : List Session) (x : Session) (p : Nat) (a b : List POp) (hd : x.before ++ x.during = a ++ .deactivate p :: b)
    (hb : .activate p ∉ b) (hr : x.afterRaises = false) : .stop p ∉ (session env x (sessions env xs {})).2 := by
  have h0 : Inv env (fun _ => True) (runOps env x.before (sessions env xs {})) :=
    ((Inv.init env _).sessions ho xs (fun _ _ _ _ => trivial)).ops x.before (fun _ _ => trivial)
  have hact : ∀ on, p ∉ (runOps env x.during { runOps env x.before (sessions env xs {}) with on := on }).active := by
    intro on
    have hon : ∀ (ops : List POp) (s : St), (runOps env ops { s with on := on }).active = (runOps env ops s).active ∧
        runOps env ops { s with on := on } = { runOps env ops s with on := on } := by
      intro ops
      induction ops with
      | nil => intro s; exact ⟨rfl, rfl⟩
      | cons op ops ih =>
        intro s
        have : POp.run env op { s with on := on } = { POp.run env op s with on := on } := by
          cases op with
          | activate q => rfl
          | deactivate q => simp only [POp.run]; split <;> rfl
        simp only [runOps, List.foldl_cons] at ih ⊢
        rw [this]
        exact ih _
    rw [(hon _ _).1]
    have : runOps env x.during (runOps env x.before (sessions env xs {})) = runOps env (a ++ .deactivate p :: b) (sessions env xs {}) := by
      rw [← hd]; simp only [runOps, List.foldl_append]
    rw [this]
    exact inactive_last env p a b _ hb
  unfold session
  simp only
  generalize runOps env x.before (sessions env xs {}) = s0 at h0 hact ⊢
  split
  · intro hp; cases hp
  · have S := callStarts_spec env x.startRaises (env.orderS s0.starts) s0.on
    generalize callStarts env x.startRaises (env.orderS s0.starts) s0.on = c at S ⊢
    obtain ⟨on, calls, raised⟩ := c
    simp only at S ⊢
    split
    · exact S.2.2.2.2.1 p
    · rw [if_neg (by simp [hr])]
      have h1 : Inv env (fun _ => True) (runOps env x.during { s0 with on := on }) :=
        (h0.withOn on (fun _ _ => trivial) (S.1 h0.nodup)).ops x.during (fun _ _ => trivial)
      have h2 := hact on
      generalize runOps env x.during { s0 with on := on } = s2 at h1 h2 ⊢
      have E := callEnds_spec env x.endRaises (env.orderE s2.ends) s2.on
      generalize callEnds env x.endRaises (env.orderE s2.ends) s2.on = c at E ⊢
      obtain ⟨on', calls'⟩ := c
      simp only at E ⊢
      intro hp
      rcases List.mem_append.1 hp with hp | hp
      · exact S.2.2.2.2.1 p hp
      · exact h2 ((h1.ends p).1 ((ho.ends _).mem_iff.1 (E.2.2.2.1 p hp).1)).1

/-- C176, violated: a plugin that was deactivated in an earlier session and is activated again while a session is running is told that it ends, though it was not told that it
started (whatever `gossip` does about exceptions); the same goes for a plugin without `session_start`, which leaves a callback behind, even if it was active in no session before;
and a plugin that is activated twice is told about the start twice, and once about the end. -/
theorem C176_only_violated (defer onIfRaises offIfRaises : Bool) :
    (let env : Env := { hasStart := fun _ => true, hasEnd := fun _ => true, defer := defer, onIfRaises := onIfRaises, offIfRaises := offIfRaises }
     (session env { during := [.activate 1] } (sessions env [{ before := [.activate 1], during := [.deactivate 1] }] {})).2 = [.stop 1]) ∧
    (let env : Env := { hasStart := fun _ => false, hasEnd := fun _ => true, defer := defer, onIfRaises := onIfRaises, offIfRaises := offIfRaises }
     (session env { before := [.activate 1, .deactivate 1], during := [.activate 1] } {}).2 = [.stop 1]) ∧
    (let env : Env := { hasStart := fun _ => true, hasEnd := fun _ => true, defer := defer, onIfRaises := onIfRaises, offIfRaises := offIfRaises }
     (session env { before := [.activate 1, .activate 1] } {}).2 = [.start 1, .start 1, .stop 1]) := by
  revert defer onIfRaises offIfRaises; decide

/-- Two plugins, of which the first raises when the session starts: neither is told about its end; in the next session both are. -/
example : let env : Env := { hasStart := fun _ => true, hasEnd := fun _ => true }
    (session env { before := [.activate 1, .activate 2], startRaises := fun p => p == 1 } {}).2 = [.start 1, .start 2] ∧
    (session env {} (sessions env [{ before := [.activate 1, .activate 2], startRaises := fun p => p == 1 }] {})).2 = [.start 1, .start 2, .stop 1, .stop 2] := by decide

/-- A plugin that is activated for the first time in a running session. -/
example : let env : Env := { hasStart := fun _ => true, hasEnd := fun _ => true }
    (session env { before := [.activate 1], during := [.activate 2], endRaises := fun _ => true } {}).2 = [.start 1, .stop 1] := by decide

end Slash.Tog
