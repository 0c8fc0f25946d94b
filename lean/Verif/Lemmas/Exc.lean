import Verif.Model.Exc
/-! Helper lemmas about the exception-handling model. -/
namespace Slash.Exc
variable {T : Type}

/-- The exception object `e` is of the class that `cls` assigns to its identity. -/
def Exc.Coh (cls : Nat → T) (e : Exc T) : Prop := e.cls = cls e.id

/-- All exception objects mentioned by a script agree with `cls` (an object has one class). -/
def Prog.Coh (H : Hier T) (cls : Nat → T) : Prog T → Prop
  | .done => True
  | .raise e => e.Coh cls
  | .seq p q => p.Coh H cls ∧ q.Coh H cls
  | .tryFinally p q => p.Coh H cls ∧ q.Coh H cls
  | .tryExcept _ p q => p.Coh H cls ∧ q.Coh H cls
  | .handling _ p => p.Coh H cls
  | .assertRaises _ nc p => cls nc = H.notCaught ∧ p.Coh H cls
  | .allowing _ p => p.Coh H cls
  | .swallowing p => p.Coh H cls
  | .record e => e.Coh cls
  | .noswallow e => e.Coh cls
  | .decorated p => p.Coh H cls

def Env.Coh (E : Env T) (cls : Nat → T) : Prop :=
  (∀ e e', E.beforeRaises e = some e' → e'.Coh cls) ∧ (∀ e e', E.afterRaises e = some e' → e'.Coh cls)

def Ev.isEntryOf (id : Nat) : Ev → Bool
  | .entry i _ => i == id
  | _ => false

/-- What one piece of execution may do to marks and trace. -/
structure Delta (H : Hier T) (cls : Nat → T) (st st' : St T) (tr : List Ev) : Prop where
  trace : st'.trace = st.trace ++ tr
  monoH : ∀ id, (st.marks id).handled = true → (st'.marks id).handled = true
  monoA : ∀ id, (st.marks id).added = true → (st'.marks id).added = true
  cntB : ∀ id, tr.count (.before id) =
    if (st'.marks id).handled && !(st.marks id).handled then 1 else 0
  cntE : ∀ id, tr.countP (Ev.isEntryOf id) =
    if (st'.marks id).added && !(st.marks id).added && (classify H ⟨id, cls id⟩).isSome then 1 else 0
  kind : ∀ id k, Ev.entry id k ∈ tr → classify H ⟨id, cls id⟩ = some k

theorem Delta.refl (H : Hier T) (cls : Nat → T) (st : St T) : Delta H cls st st [] := by
  constructor <;> simp

theorem Delta.trans {H : Hier T} {cls : Nat → T} {a b c : St T} {t u : List Ev}
    (h : Delta H cls a b t) (g : Delta H cls b c u) : Delta H cls a c (t ++ u) := by
  constructor
  · rw [g.trace, h.trace, List.append_assoc]
  · exact fun id x => g.monoH id (h.monoH id x)
  · exact fun id x => g.monoA id (h.monoA id x)
  · intro id
    have h1 := h.cntB id; have h2 := g.cntB id
    have h3 := h.monoH id; have h4 := g.monoH id
    rw [List.count_append, h1, h2]
    revert h3 h4
    cases (a.marks id).handled <;> cases (b.marks id).handled <;> cases (c.marks id).handled <;> simp
  · intro id
    have h1 := h.cntE id; have h2 := g.cntE id
    have h3 := h.monoA id; have h4 := g.monoA id
    rw [List.countP_append, h1, h2]
    revert h3 h4
    cases (a.marks id).added <;> cases (b.marks id).added <;> cases (c.marks id).added <;>
      cases (classify H ⟨id, cls id⟩).isSome <;> simp
  · intro id k hk
    rcases List.mem_append.1 hk with hk | hk
    · exact h.kind id k hk
    · exact g.kind id k hk

/-- changing `ignored` only is invisible to `Delta` -/
theorem Delta.ignored_left {H : Hier T} {cls : Nat → T} {a b : St T} {t : List Ev} {l : List T}
    (h : Delta H cls { a with ignored := l } b t) : Delta H cls a b t := by
  obtain ⟨h1, h2, h3, h4, h5, h6⟩ := h
  exact ⟨h1, h2, h3, h4, h5, h6⟩

theorem Delta.ignored_right {H : Hier T} {cls : Nat → T} {a b : St T} {t : List Ev} {l : List T}
    (h : Delta H cls a b t) : Delta H cls a { b with ignored := l } t := by
  obtain ⟨h1, h2, h3, h4, h5, h6⟩ := h
  exact ⟨h1, h2, h3, h4, h5, h6⟩

theorem Exc.eq_of_coh {cls : Nat → T} {e : Exc T} (h : e.Coh cls) : e = ⟨e.id, cls e.id⟩ := by
  cases e; simp [Exc.Coh] at h; simp [h]

theorem addException_delta (H : Hier T) (cls : Nat → T) (e : Exc T) (he : e.Coh cls) (st : St T) :
    ∃ tr, Delta H cls st (addException H e st) tr := by
  unfold addException
  by_cases hadd : (st.marks e.id).added = true
  · rw [if_pos hadd]; exact ⟨[], Delta.refl _ _ _⟩
  · have hadd' : (st.marks e.id).added = false := by simpa using hadd
    rw [if_neg hadd]; simp only
    have hcl : classify H e = classify H ⟨e.id, cls e.id⟩ := congrArg _ (Exc.eq_of_coh he)
    cases hk : classify H e with
    | none =>
      refine ⟨[], ?_⟩
      rw [hk] at hcl
      constructor
      · simp [St.setMarks]
      · intro id; simp only [St.setMarks]; split <;> simp_all
      · intro id; simp only [St.setMarks]; split <;> simp_all
      · intro id; simp only [St.setMarks]; split <;> simp_all
      · intro id; simp only [St.setMarks]; split
        · subst id; simp [← hcl]
        · simp
      · simp
    | some k =>
      refine ⟨[.entry e.id k], ?_⟩
      rw [hk] at hcl
      constructor
      · simp [St.setMarks, St.emit]
      · intro id; simp only [St.setMarks, St.emit]; split <;> simp_all
      · intro id; simp only [St.setMarks, St.emit]; split <;> simp_all
      · intro id; simp only [St.setMarks, St.emit]; split <;> simp_all
      · intro id; simp only [St.setMarks, St.emit]; split
        · subst id; simp [← hcl, Ev.isEntryOf, hadd']
        · rename_i hne; have : ¬ e.id = id := fun h => hne h.symm
          simp [Ev.isEntryOf, this]
      · simp only [List.mem_singleton, Ev.entry.injEq]
        rintro id k' ⟨rfl, rfl⟩; exact hcl.symm

theorem addException_ignored (H : Hier T) (e : Exc T) (st : St T) :
    (addException H e st).ignored = st.ignored := by
  unfold addException; split
  · rfl
  · split <;> simp [St.setMarks, St.emit]

theorem addException_handled (H : Hier T) (e : Exc T) (st : St T) (id : Nat) :
    ((addException H e st).marks id).handled = (st.marks id).handled := by
  unfold addException; split
  · rfl
  · split <;> simp only [St.setMarks, St.emit] <;> split <;> simp_all

theorem addException_added (H : Hier T) (e : Exc T) (st : St T) :
    ((addException H e st).marks e.id).added = true := by
  unfold addException; split
  · assumption
  · split <;> simp [St.setMarks, St.emit]

theorem updateCurrentResult_handled (E : Env T) (e : Exc T) (st : St T) (id : Nat) :
    ((updateCurrentResult E e st).marks id).handled = (st.marks id).handled := by
  unfold updateCurrentResult; split
  · exact addException_handled ..
  · rfl

theorem updateCurrentResult_ignored (E : Env T) (e : Exc T) (st : St T) :
    (updateCurrentResult E e st).ignored = st.ignored := by
  unfold updateCurrentResult; split
  · exact addException_ignored ..
  · rfl

theorem updateCurrentResult_delta (E : Env T) (cls : Nat → T) (e : Exc T) (he : e.Coh cls)
    (st : St T) : ∃ tr, Delta E.H cls st (updateCurrentResult E e st) tr := by
  unfold updateCurrentResult; split
  · exact addException_delta _ _ _ he _
  · exact ⟨[], Delta.refl _ _ _⟩

/-- Marking an unhandled exception as handled and then firing the hook, around any execution that
does not touch the handled marks. -/
theorem mark_before_delta (E : Env T) (cls : Nat → T) (e : Exc T) (he : e.Coh cls) (st : St T)
    (hn : (st.marks e.id).handled = false) :
    ∃ tr, Delta E.H cls st
      ((updateCurrentResult E e (st.setMarks e.id { st.marks e.id with handled := true })).emit
        (.before e.id)) tr := by
  generalize hs1 : st.setMarks e.id { st.marks e.id with handled := true } = s1
  have e1 : s1.trace = st.trace := by rw [← hs1]; rfl
  have e2 : (s1.marks e.id).handled = true := by rw [← hs1]; simp [St.setMarks]
  have e3 : ∀ id, id ≠ e.id → (s1.marks id).handled = (st.marks id).handled := by
    intro id h; rw [← hs1]; simp [St.setMarks, h]
  have e4 : ∀ id, (s1.marks id).added = (st.marks id).added := by
    intro id; rw [← hs1]; simp only [St.setMarks]; split <;> simp_all
  obtain ⟨tr, hd⟩ := updateCurrentResult_delta E cls e he s1
  have hh := updateCurrentResult_handled E e s1
  generalize updateCurrentResult E e s1 = s2 at hd hh ⊢
  obtain ⟨h1, h2, h3, h4, h5, h6⟩ := hd
  refine ⟨tr ++ [.before e.id], ?_⟩
  constructor
  · simp [St.emit, h1, e1]
  · intro id hid; apply h2
    by_cases h : id = e.id
    · rw [h]; exact e2
    · rw [e3 id h]; exact hid
  · intro id hid; apply h3; rw [e4]; exact hid
  · intro id
    rw [List.count_append, h4 id]
    simp only [St.emit, hh]
    by_cases hid : id = e.id
    · subst hid; simp [hn, e2]
    · have : ¬ e.id = id := fun h => hid h.symm
      simp [this, e3 id hid]
  · intro id
    rw [List.countP_append, h5 id]
    simp [St.emit, e4, Ev.isEntryOf]
  · intro id k hk
    simp at hk
    exact h6 id k hk

theorem emit_delta (H : Hier T) (cls : Nat → T) (st : St T) (ev : Ev)
    (hb : ∀ id, ev ≠ .before id) (he : ∀ id k, ev ≠ .entry id k) :
    Delta H cls st (st.emit ev) [ev] := by
  constructor
  · simp [St.emit]
  · simp [St.emit]
  · simp [St.emit]
  · intro id; simp [St.emit, hb id]
  · intro id; simp only [St.emit]
    cases ev <;> simp_all [Ev.isEntryOf]
  · intro id k; simp only [List.mem_singleton]; intro h; exact absurd h.symm (he id k)

theorem handleException_delta (E : Env T) (cls : Nat → T) (e : Exc T) (he : e.Coh cls) (st : St T) :
    ∃ tr, Delta E.H cls st (handleException E e st).2 tr := by
  unfold handleException
  by_cases hh : (st.marks e.id).handled = true
  · rw [if_pos hh]; exact ⟨[], Delta.refl _ _ _⟩
  · have hn : (st.marks e.id).handled = false := by simpa using hh
    rw [if_neg hh]; simp only
    obtain ⟨tr, hd⟩ := mark_before_delta E cls e he st hn
    cases E.beforeRaises e with
    | some e' => exact ⟨tr, hd⟩
    | none =>
      exact ⟨_, hd.trans (emit_delta _ _ _ (.after e.id) (by simp) (by simp))⟩

theorem handleException_coh (E : Env T) (cls : Nat → T) (hE : E.Coh cls) (e e' : Exc T)
    (st : St T) (h : (handleException E e st).1 = some e') : e'.Coh cls := by
  unfold handleException at h
  split at h
  · simp at h
  · simp only at h
    split at h
    · rename_i heq; injection h with h; subst h; exact hE.1 _ _ heq
    · exact hE.2 _ _ h

theorem handleException_ignored (E : Env T) (e : Exc T) (st : St T) :
    (handleException E e st).2.ignored = st.ignored := by
  unfold handleException
  split
  · rfl
  · simp only; split <;> simp [St.emit, updateCurrentResult_ignored, St.setMarks]

theorem handleException_handled (E : Env T) (e : Exc T) (st : St T) :
    ((handleException E e st).2.marks e.id).handled = true := by
  unfold handleException
  split
  · assumption
  · simp only; split <;> simp [St.emit, updateCurrentResult_handled, St.setMarks]

theorem handleException_handled_other (E : Env T) (e : Exc T) (st : St T) (id : Nat)
    (h : id ≠ e.id) :
    ((handleException E e st).2.marks id).handled = (st.marks id).handled := by
  unfold handleException
  split
  · rfl
  · simp only; split <;> simp [St.emit, updateCurrentResult_handled, St.setMarks, h]

theorem handlingExit_snd (E : Env T) (c : Cfg T) (pass : List T) (e : Exc T) (st : St T) :
    (handlingExit E c pass e st).2 =
      if E.H.inst e pass then st else (handleException E e st).2 := by
  unfold handlingExit
  cases hp : E.H.inst e pass
  · simp only [Bool.false_eq_true, if_false]
    rcases h : handleException E e st with ⟨_ | e', st'⟩
    · simp only
      by_cases h1 : (E.H.inst e E.skipTypes || E.H.inst e E.H.interruptTypes) = true
      · rw [if_pos h1]
      · rw [if_neg h1]; split <;> rfl
    · simp only
  · simp

theorem handlingExit_fst (E : Env T) (c : Cfg T) (pass : List T) (e : Exc T) (st : St T) :
    (handlingExit E c pass e st).1 =
      if E.H.inst e pass then some e
      else match (handleException E e st).1 with
        | some e' => some e'
        | none =>
          if E.H.inst e E.skipTypes || E.H.inst e E.H.interruptTypes then some e
          else if E.H.inst e (c.effSwallow E.H) then none else some e := by
  unfold handlingExit
  cases hp : E.H.inst e pass
  · simp only [Bool.false_eq_true, if_false]
    rcases h : handleException E e st with ⟨_ | e', st'⟩
    · simp only
      by_cases h1 : (E.H.inst e E.skipTypes || E.H.inst e E.H.interruptTypes) = true
      · rw [if_pos h1, if_pos h1]
      · rw [if_neg h1, if_neg h1]; split <;> rfl
    · simp only
  · simp

theorem handlingExit_delta (E : Env T) (cls : Nat → T) (c : Cfg T) (pass : List T) (e : Exc T)
    (he : e.Coh cls) (st : St T) :
    ∃ tr, Delta E.H cls st (handlingExit E c pass e st).2 tr := by
  rw [handlingExit_snd]
  split
  · exact ⟨[], Delta.refl _ _ _⟩
  · exact handleException_delta E cls e he st

theorem handlingExit_coh (E : Env T) (cls : Nat → T) (hE : E.Coh cls) (c : Cfg T) (pass : List T)
    (e e' : Exc T) (he : e.Coh cls) (st : St T)
    (h : (handlingExit E c pass e st).1 = some e') : e'.Coh cls := by
  rw [handlingExit_fst] at h
  by_cases h1 : E.H.inst e pass = true
  · rw [if_pos h1] at h; injection h with h; exact h ▸ he
  · rw [if_neg h1] at h
    cases h2 : (handleException E e st).1 with
    | some e2 =>
      rw [h2] at h; injection h with h
      exact h ▸ handleException_coh E cls hE e e2 st h2
    | none =>
      rw [h2] at h; simp only at h
      by_cases h3 : (E.H.inst e E.skipTypes || E.H.inst e E.H.interruptTypes) = true
      · rw [if_pos h3] at h; injection h with h; exact h ▸ he
      · rw [if_neg h3] at h
        split at h
        · cases h
        · injection h with h; exact h ▸ he

theorem handlingExit_ignored (E : Env T) (c : Cfg T) (pass : List T) (e : Exc T) (st : St T) :
    (handlingExit E c pass e st).2.ignored = st.ignored := by
  rw [handlingExit_snd]
  split
  · rfl
  · exact handleException_ignored E e st

/-- A handling context leaves the handled marks of pass-through exceptions alone, and marks no other
exception than the one passing through it. -/
theorem handlingExit_handled (E : Env T) (c : Cfg T) (pass : List T) (e : Exc T) (st : St T)
    (id : Nat) (h : E.H.inst e pass = true ∨ id ≠ e.id) :
    ((handlingExit E c pass e st).2.marks id).handled = (st.marks id).handled := by
  rw [handlingExit_snd]
  by_cases hp : E.H.inst e pass = true
  · rw [if_pos hp]
  · rw [if_neg hp]; exact handleException_handled_other E e st id (h.resolve_left hp)

theorem caughtExit_delta (H : Hier T) (cls : Nat → T) (ts : List T) (b : Bool) (nc : Nat)
    (o : Option (Exc T)) (st : St T) : ∃ tr, Delta H cls st (caughtExit H ts b nc o st).2 tr := by
  unfold caughtExit
  split
  · split
    · exact ⟨_, emit_delta _ _ _ _ (by simp) (by simp)⟩
    · exact ⟨[], Delta.refl _ _ _⟩
  · split <;> exact ⟨[], Delta.refl _ _ _⟩

theorem caughtExit_marks (H : Hier T) (ts : List T) (b : Bool) (nc : Nat)
    (o : Option (Exc T)) (st : St T) : (caughtExit H ts b nc o st).2.marks = st.marks := by
  unfold caughtExit
  split
  · split <;> rfl
  · split <;> rfl

theorem caughtExit_ignored (H : Hier T) (ts : List T) (b : Bool) (nc : Nat)
    (o : Option (Exc T)) (st : St T) : (caughtExit H ts b nc o st).2.ignored = st.ignored := by
  unfold caughtExit
  split
  · split <;> rfl
  · split <;> rfl

/-- Anticipation is properly scoped. -/
theorem eval_ignored (E : Env T) (p : Prog T) (st : St T) :
    (eval E p st).2.ignored = st.ignored := by
  induction p generalizing st with
  | done => rfl
  | raise e => rfl
  | seq p q ihp ihq =>
    have h1 := ihp st
    simp only [eval]; split
    · rename_i heq; rw [heq] at h1; rw [ihq]; exact h1
    · rename_i heq; rw [heq] at h1; exact h1
  | tryFinally p q ihp ihq =>
    have h1 := ihp st
    have h2 := ihq (eval E p st).2
    simp only [eval]; split
    · rename_i heq; rw [heq] at h2; rw [← h1]; exact h2
    · rename_i heq; rw [heq] at h2; rw [← h1]; exact h2
  | tryExcept ts p q ihp ihq =>
    have h1 := ihp st
    simp only [eval]; split
    · rename_i heq; rw [heq] at h1; split
      · rw [ihq]; exact h1
      · exact h1
    · rename_i heq; rw [heq] at h1; exact h1
  | handling c p ih =>
    have h1 := ih st
    simp only [eval]; split
    · rename_i heq; rw [heq] at h1; rw [handlingExit_ignored]; exact h1
    · rename_i heq; rw [heq] at h1; exact h1
  | assertRaises ts nc p ih => simp [eval, caughtExit_ignored]
  | allowing ts p ih => simp [eval, caughtExit_ignored]
  | swallowing p ih =>
    have h1 := ih st
    simp only [eval]; split
    · rename_i heq; rw [heq] at h1; split <;> exact h1
    · rename_i heq; rw [heq] at h1; exact h1
  | record e => exact addException_ignored ..
  | noswallow e => rfl
  | decorated p ih =>
    have h1 := ih st
    simp only [eval]; split
    · rename_i heq; rw [heq] at h1; exact h1
    · rename_i heq; rw [heq] at h1; exact h1

theorem eval_main (E : Env T) (cls : Nat → T) (hE : E.Coh cls) (p : Prog T) (hp : p.Coh E.H cls)
    (st : St T) :
    (∃ tr, Delta E.H cls st (eval E p st).2 tr) ∧ ∀ e, (eval E p st).1 = some e → e.Coh cls := by
  induction p generalizing st with
  | done => exact ⟨⟨[], Delta.refl _ _ _⟩, by simp [eval]⟩
  | raise e => exact ⟨⟨[], Delta.refl _ _ _⟩, by simp [eval]; exact hp⟩
  | seq p q ihp ihq =>
    obtain ⟨⟨t, hd⟩, hc⟩ := ihp hp.1 st
    simp only [eval]; split
    · rename_i st1 heq; rw [heq] at hd hc
      obtain ⟨⟨u, hd2⟩, hc2⟩ := ihq hp.2 st1
      exact ⟨⟨_, hd.trans hd2⟩, hc2⟩
    · rename_i heq; rw [heq] at hd hc; exact ⟨⟨t, hd⟩, hc⟩
  | tryFinally p q ihp ihq =>
    obtain ⟨⟨t, hd⟩, hc⟩ := ihp hp.1 st
    obtain ⟨⟨u, hd2⟩, hc2⟩ := ihq hp.2 (eval E p st).2
    simp only [eval]; split
    · rename_i heq; rw [heq] at hd2 hc2; exact ⟨⟨_, hd.trans hd2⟩, hc2⟩
    · rename_i heq; rw [heq] at hd2 hc2; exact ⟨⟨_, hd.trans hd2⟩, hc⟩
  | tryExcept ts p q ihp ihq =>
    obtain ⟨⟨t, hd⟩, hc⟩ := ihp hp.1 st
    simp only [eval]; split
    · rename_i e st1 heq; rw [heq] at hd hc
      split
      · obtain ⟨⟨u, hd2⟩, hc2⟩ := ihq hp.2 st1
        exact ⟨⟨_, hd.trans hd2⟩, hc2⟩
      · exact ⟨⟨t, hd⟩, hc⟩
    · rename_i heq; rw [heq] at hd hc; exact ⟨⟨t, hd⟩, by simp⟩
  | handling c p ih =>
    obtain ⟨⟨t, hd⟩, hc⟩ := ih hp st
    simp only [eval]; split
    · rename_i e st1 heq; rw [heq] at hd hc
      obtain ⟨u, hd2⟩ := handlingExit_delta E cls c (c.passthrough ++ st.ignored) e (hc e rfl) st1
      exact ⟨⟨_, hd.trans hd2⟩, fun e' h => handlingExit_coh E cls hE c _ e e' (hc e rfl) st1 h⟩
    · rename_i heq; rw [heq] at hd hc; exact ⟨⟨t, hd⟩, by simp⟩
  | assertRaises ts nc p ih =>
    obtain ⟨⟨t, hd⟩, hc⟩ := ih hp.2 { st with ignored := st.ignored ++ ts }
    simp only [eval]
    obtain ⟨u, hd2⟩ := caughtExit_delta E.H cls ts true nc
      (eval E p { st with ignored := st.ignored ++ ts }).1
      { (eval E p { st with ignored := st.ignored ++ ts }).2 with ignored := st.ignored }
    refine ⟨⟨_, hd.ignored_left.ignored_right.trans hd2⟩, ?_⟩
    intro e h
    unfold caughtExit at h
    split at h
    · rename_i e0 heq
      split at h
      · simp at h
      · simp at h; subst h; exact hc _ heq
    · simp at h; subst h; exact hp.1.symm
  | allowing ts p ih =>
    obtain ⟨⟨t, hd⟩, hc⟩ := ih hp { st with ignored := st.ignored ++ ts }
    simp only [eval]
    obtain ⟨u, hd2⟩ := caughtExit_delta E.H cls ts false 0
      (eval E p { st with ignored := st.ignored ++ ts }).1
      { (eval E p { st with ignored := st.ignored ++ ts }).2 with ignored := st.ignored }
    refine ⟨⟨_, hd.ignored_left.ignored_right.trans hd2⟩, ?_⟩
    intro e h
    unfold caughtExit at h
    split at h
    · rename_i e0 heq
      split at h
      · simp at h
      · simp at h; subst h; exact hc _ heq
    · simp at h
  | swallowing p ih =>
    obtain ⟨⟨t, hd⟩, hc⟩ := ih hp st
    simp only [eval]; split
    · rename_i e st1 heq; rw [heq] at hd hc
      split
      · exact ⟨⟨t, hd⟩, by simp⟩
      · exact ⟨⟨t, hd⟩, hc⟩
    · rename_i heq; rw [heq] at hd hc; exact ⟨⟨t, hd⟩, by simp⟩
  | record e => exact ⟨addException_delta _ _ _ hp _, by simp [eval]⟩
  | noswallow e =>
    refine ⟨⟨[], ?_⟩, by simp [eval]⟩
    constructor <;> (try intro id) <;> (try simp only [eval, St.setMarks]) <;> (try split) <;> simp_all
  | decorated p ih =>
    obtain ⟨⟨t, hd⟩, hc⟩ := ih hp st
    simp only [eval]; split
    · rename_i e st1 heq; rw [heq] at hd hc
      have hd2 : Delta E.H cls st1 (st1.setMarks e.id { st1.marks e.id with swallow := false }) [] := by
        constructor <;> (try intro id) <;> (try simp only [St.setMarks]) <;> (try split) <;> simp_all
      exact ⟨⟨_, hd.trans hd2⟩, hc⟩
    · rename_i heq; rw [heq] at hd hc; exact ⟨⟨t, hd⟩, by simp⟩

theorem inst_append_left {H : Hier T} {e : Exc T} {a b : List T} (h : H.inst e a = true) :
    H.inst e (a ++ b) = true := by
  unfold Hier.inst at *; simp at *; exact Or.inl h

theorem inst_append_right {H : Hier T} {e : Exc T} {a b : List T} (h : H.inst e b = true) :
    H.inst e (a ++ b) = true := by
  unfold Hier.inst at *; simp at *; exact Or.inr h

/-- Exceptions anticipated by the surrounding code are never marked as handled. -/
theorem eval_anticipated (E : Env T) (cls : Nat → T) (hE : E.Coh cls) (p : Prog T)
    (hp : p.Coh E.H cls) (st : St T) (id : Nat) (ha : E.H.inst ⟨id, cls id⟩ st.ignored = true) :
    ((eval E p st).2.marks id).handled = (st.marks id).handled := by
  induction p generalizing st with
  | done => rfl
  | raise e => rfl
  | seq p q ihp ihq =>
    have h1 := ihp hp.1 st ha
    have hi := eval_ignored E p st
    simp only [eval]; split
    · rename_i heq; rw [heq] at h1 hi; rw [ihq hp.2 _ (by rw [hi]; exact ha)]; exact h1
    · rename_i heq; rw [heq] at h1; exact h1
  | tryFinally p q ihp ihq =>
    have h1 := ihp hp.1 st ha
    have h2 := ihq hp.2 (eval E p st).2 (by rw [eval_ignored]; exact ha)
    simp only [eval]; split
    · rename_i heq; rw [heq] at h2; rw [← h1]; exact h2
    · rename_i heq; rw [heq] at h2; rw [← h1]; exact h2
  | tryExcept ts p q ihp ihq =>
    have h1 := ihp hp.1 st ha
    have hi := eval_ignored E p st
    simp only [eval]; split
    · rename_i heq; rw [heq] at h1 hi; split
      · rw [ihq hp.2 _ (by rw [hi]; exact ha)]; exact h1
      · exact h1
    · rename_i heq; rw [heq] at h1; exact h1
  | handling c p ih =>
    have h1 := ih hp st ha
    have hc := (eval_main E cls hE p hp st).2
    simp only [eval]; split
    · rename_i e st1 heq; rw [heq] at h1 hc
      rw [handlingExit_handled, h1]
      by_cases hid : id = e.id
      · left
        have : e = ⟨id, cls id⟩ := by rw [hid]; exact Exc.eq_of_coh (hc e rfl)
        rw [this]; exact inst_append_right ha
      · exact Or.inr hid
    · rename_i heq; rw [heq] at h1; exact h1
  | assertRaises ts nc p ih =>
    simp only [eval, caughtExit_marks]
    exact ih hp.2 _ (inst_append_left ha)
  | allowing ts p ih =>
    simp only [eval, caughtExit_marks]
    exact ih hp _ (inst_append_left ha)
  | swallowing p ih =>
    have h1 := ih hp st ha
    simp only [eval]; split
    · rename_i heq; rw [heq] at h1; split <;> exact h1
    · rename_i heq; rw [heq] at h1; exact h1
  | record e => exact addException_handled ..
  | noswallow e => simp only [eval, St.setMarks]; split <;> simp_all
  | decorated p ih =>
    have h1 := ih hp st ha
    simp only [eval]; split
    · rename_i heq; rw [heq] at h1; simp only [St.setMarks]; split <;> simp_all
    · rename_i heq; rw [heq] at h1; exact h1

/-- handled exceptions have been offered to a result -/
def HandledAdded (st : St T) : Prop :=
  ∀ id, (st.marks id).handled = true → (st.marks id).added = true

theorem addException_added_mono (H : Hier T) (e : Exc T) (st : St T) (id : Nat)
    (h : (st.marks id).added = true) : ((addException H e st).marks id).added = true := by
  unfold addException; split
  · exact h
  · split <;> simp only [St.setMarks, St.emit] <;> split <;> simp_all

theorem handleException_handledAdded (E : Env T) (hs : E.hasSession = true) (e : Exc T) (st : St T)
    (h : HandledAdded st) : HandledAdded (handleException E e st).2 := by
  have key : ∀ id, ((handleException E e st).2.marks id).added = true ∨
      ((handleException E e st).2.marks id).handled = false := by
    intro id
    by_cases hid : id = e.id
    · left
      subst hid
      unfold handleException
      split
      · exact h _ (by assumption)
      · simp only [updateCurrentResult, hs, if_true]
        split <;> simp [St.emit, addException_added]
    · cases hh : (st.marks id).handled
      · right; rw [handleException_handled_other _ _ _ _ hid]; exact hh
      · left
        have := h id hh
        unfold handleException
        split
        · exact this
        · simp only [updateCurrentResult, hs, if_true]
          split <;> simp only [St.emit] <;>
            exact addException_added_mono _ _ _ _ (by simpa [St.setMarks, hid] using this)
  intro id hid
  rcases key id with h1 | h1
  · exact h1
  · rw [h1] at hid; cases hid

theorem eval_handledAdded (E : Env T) (hs : E.hasSession = true) (p : Prog T) (st : St T)
    (h : HandledAdded st) : HandledAdded (eval E p st).2 := by
  induction p generalizing st with
  | done => exact h
  | raise e => exact h
  | seq p q ihp ihq =>
    have h1 := ihp st h
    simp only [eval]; split
    · rename_i heq; rw [heq] at h1; exact ihq _ h1
    · rename_i heq; rw [heq] at h1; exact h1
  | tryFinally p q ihp ihq =>
    have h2 := ihq (eval E p st).2 (ihp st h)
    simp only [eval]; split
    · rename_i heq; rw [heq] at h2; exact h2
    · rename_i heq; rw [heq] at h2; exact h2
  | tryExcept ts p q ihp ihq =>
    have h1 := ihp st h
    simp only [eval]; split
    · rename_i heq; rw [heq] at h1; split
      · exact ihq _ h1
      · exact h1
    · rename_i heq; rw [heq] at h1; exact h1
  | handling c p ih =>
    have h1 := ih st h
    simp only [eval]; split
    · rename_i heq; rw [heq] at h1; rw [handlingExit_snd]; split
      · exact h1
      · exact handleException_handledAdded E hs _ _ h1
    · rename_i heq; rw [heq] at h1; exact h1
  | assertRaises ts nc p ih =>
    simp only [eval]; intro id; rw [caughtExit_marks]; exact ih { st with ignored := st.ignored ++ ts } h id
  | allowing ts p ih =>
    simp only [eval]; intro id; rw [caughtExit_marks]; exact ih { st with ignored := st.ignored ++ ts } h id
  | swallowing p ih =>
    have h1 := ih st h
    simp only [eval]; split
    · rename_i heq; rw [heq] at h1; split <;> exact h1
    · rename_i heq; rw [heq] at h1; exact h1
  | record e =>
    intro id hid
    simp only [eval] at hid ⊢
    rw [addException_handled] at hid
    exact addException_added_mono _ _ _ _ (h id hid)
  | noswallow e =>
    intro id; simp only [eval, St.setMarks]; split
    · rename_i hh; rw [← hh]; exact h id
    · exact h id
  | decorated p ih =>
    have h1 := ih st h
    simp only [eval]; split
    · rename_i heq; rw [heq] at h1
      intro id; simp only [St.setMarks]; split
      · rename_i hh; rw [← hh]; exact h1 id
      · exact h1 id
    · rename_i heq; rw [heq] at h1; exact h1

end Slash.Exc
