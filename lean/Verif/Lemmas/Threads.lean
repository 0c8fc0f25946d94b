import Verif.Model.Threads
import Verif.Lemmas.Exc
/-! Lemmas about threads that handle exceptions. -/
namespace Slash.Thr
open Slash.Exc (Exc Ev Entry Marks Env Cfg Prog St Hier)
variable {T : Type}

/-- Every exception object that a script mentions. -/
def PAll (H : Hier T) (P : Exc T → Prop) : Prog T → Prop
  | .done => True
  | .raise e => P e
  | .seq p q => PAll H P p ∧ PAll H P q
  | .tryFinally p q => PAll H P p ∧ PAll H P q
  | .tryExcept _ p q => PAll H P p ∧ PAll H P q
  | .handling _ p => PAll H P p
  | .assertRaises _ nc p => P ⟨nc, H.notCaught⟩ ∧ PAll H P p
  | .allowing _ p => PAll H P p
  | .swallowing p => PAll H P p
  | .record e => P e
  | .noswallow e => P e
  | .decorated p => PAll H P p

/-- Every exception that the hooks raise for an exception with the property has the property. -/
def EAll (E : Env T) (P : Exc T → Prop) : Prop :=
  ∀ e e', P e → E.beforeRaises e = some e' ∨ E.afterRaises e = some e' → P e'

def OAll (P : Exc T → Prop) (o : Option (Exc T)) : Prop := ∀ e, o = some e → P e

def FAll (H : Hier T) (P : Exc T → Prop) : Frame T → Prop
  | .seq q => PAll H P q
  | .fin q => PAll H P q
  | .after o => OAll P o
  | .except _ q => PAll H P q
  | .handle _ _ => True
  | .caught _ ensure nc _ => ensure = true → P ⟨nc, H.notCaught⟩
  | .swallow => True
  | .decorated => True

def CAll (H : Hier T) (P : Exc T → Prop) : Ctl T → Prop
  | .run p => PAll H P p
  | .ret o => OAll P o
  | .handle _ e _ => P e
  | .record e _ => P e

def TAll (H : Hier T) (P : Exc T → Prop) (t : Thread T) : Prop := CAll H P t.ctl ∧ ∀ f ∈ t.stack, FAll H P f

theorem oall_none (P : Exc T → Prop) : OAll P none := fun _ h => nomatch h
theorem oall_some {P : Exc T → Prop} {e : Exc T} (h : P e) : OAll P (some e) := fun _ h' => by cases h'; exact h

theorem stepHandle_all (E : Env T) (P : Exc T → Prop) (hE : EAll E P) (c : Cfg T) (e : Exc T) (he : P e) (m : Nat → Marks) (s : Stage) :
    CAll E.H P (stepHandle E c e m s).1 := by
  cases s with
  | before =>
    simp only [stepHandle]
    cases h : E.beforeRaises e with
    | none => exact he
    | some e' => exact oall_some (hE e e' he (.inl h))
  | after =>
    simp only [stepHandle]
    cases h : E.afterRaises e with
    | none => exact he
    | some e' => exact oall_some (hE e e' he (.inr h))
  | finish =>
    simp only [stepHandle]
    split
    · exact oall_some he
    · split
      · exact oall_none P
      · exact oall_some he
  | _ => exact he

theorem stepRecord_all (E : Env T) (P : Exc T → Prop) (e : Exc T) (he : P e) (m : Nat → Marks) (s : Stage) :
    CAll E.H P (stepRecord E e m s).1 := by
  cases s with
  | askAdded =>
    simp only [stepRecord]
    split
    · exact oall_none P
    · exact he
  | markAdded => exact he
  | _ => exact oall_none P

theorem stepRet_all (E : Env T) (P : Exc T → Prop) (o : Option (Exc T)) (ho : OAll P o) (st : List (Frame T)) (hst : ∀ f ∈ st, FAll E.H P f)
    (ign : List T) (m : Nat → Marks) (f : Frame T) (hf : FAll E.H P f) : TAll E.H P (stepRet E o st ign m f).1 := by
  cases f with
  | seq q => cases o <;> exact ⟨by first | exact hf | exact ho, hst⟩
  | fin q => exact ⟨hf, by intro f hf; rcases List.mem_cons.1 hf with rfl | h; exact ho; exact hst f h⟩
  | after o' => cases o <;> exact ⟨by first | exact hf | exact ho, hst⟩
  | except ts q =>
    cases o with
    | none => exact ⟨ho, hst⟩
    | some e =>
      refine ⟨?_, hst⟩
      simp only [stepRet]
      split
      · exact hf
      · exact ho
  | handle c pass =>
    cases o with
    | none => exact ⟨ho, hst⟩
    | some e =>
      refine ⟨?_, hst⟩
      simp only [stepRet]
      split
      · exact ho
      · exact ho e rfl
  | caught ts ensure nc prev =>
    cases o with
    | none =>
      refine ⟨?_, hst⟩
      cases ensure with
      | false => exact oall_none P
      | true => exact oall_some (hf rfl)
    | some e =>
      simp only [stepRet]
      split
      · exact ⟨oall_none P, hst⟩
      · exact ⟨ho, hst⟩
  | swallow =>
    cases o with
    | none => exact ⟨ho, hst⟩
    | some e =>
      refine ⟨?_, hst⟩
      simp only [stepRet]
      split
      · exact oall_none P
      · exact ho
  | decorated => cases o <;> exact ⟨ho, hst⟩

theorem stepRun_all (H : Hier T) (P : Exc T → Prop) (t : Thread T) (hst : ∀ f ∈ t.stack, FAll H P f) (m : Nat → Marks) (p : Prog T)
    (hp : PAll H P p) : TAll H P (stepRun t m p).1 := by
  have push : ∀ (f : Frame T), FAll H P f → ∀ g ∈ f :: t.stack, FAll H P g := by
    intro f hf g hg
    rcases List.mem_cons.1 hg with rfl | h
    · exact hf
    · exact hst g h
  cases p with
  | done => exact ⟨oall_none P, hst⟩
  | raise e => exact ⟨oall_some hp, hst⟩
  | seq p q => exact ⟨hp.1, push _ hp.2⟩
  | tryFinally p q => exact ⟨hp.1, push _ hp.2⟩
  | tryExcept ts p q => exact ⟨hp.1, push _ hp.2⟩
  | handling c p => exact ⟨hp, push _ trivial⟩
  | assertRaises ts nc p => exact ⟨hp.2, push _ (fun _ => hp.1)⟩
  | allowing ts p => exact ⟨hp, push _ (fun h => nomatch h)⟩
  | swallowing p => exact ⟨hp, push _ trivial⟩
  | record e => exact ⟨hp, hst⟩
  | noswallow e => exact ⟨oall_none P, hst⟩
  | decorated p => exact ⟨hp, push _ trivial⟩

theorem stepT_all (E : Env T) (P : Exc T → Prop) (hE : EAll E P) (t : Thread T) (ht : TAll E.H P t) (m : Nat → Marks) :
    TAll E.H P (stepT E t m).1 := by
  rcases t with ⟨ctl, stack, ign⟩
  cases ctl with
  | run p => exact stepRun_all E.H P _ ht.2 m p ht.1
  | ret o =>
    cases stack with
    | nil => exact ht
    | cons f st =>
      exact stepRet_all E P o ht.1 st (fun g hg => ht.2 g (List.mem_cons_of_mem _ hg)) ign m f (ht.2 f List.mem_cons_self)
  | handle c e s => exact ⟨stepHandle_all E P hE c e ht.1 m s, ht.2⟩
  | record e s => exact ⟨stepRecord_all E P e ht.1 m s, ht.2⟩

/-! ## A thread touches only the exceptions it has -/

/-- The marks agree on the exceptions with the property. -/
def Agree (Q : Nat → Prop) (m m' : Nat → Marks) : Prop := ∀ n, Q n → m n = m' n

theorem setMark_agree (Q : Nat → Prop) (m m' : Nat → Marks) (h : Agree Q m m') (id : Nat) (x : Marks) :
    Agree Q (setMark m id x) (setMark m' id x) := by
  intro n hn
  simp only [setMark]
  split
  · rfl
  · exact h n hn

theorem setMark_other (m : Nat → Marks) (id : Nat) (x : Marks) (n : Nat) (h : n ≠ id) : setMark m id x n = m n := by
  simp [setMark, h]

/-- What a step does depends only on the marks of the exceptions that the thread has. -/
theorem stepT_local (E : Env T) (Q : Nat → Prop) (t : Thread T) (ht : TAll E.H (fun e => Q e.id) t) (m m' : Nat → Marks) (h : Agree Q m m') :
    (stepT E t m).1 = (stepT E t m').1 ∧ (stepT E t m).2.2 = (stepT E t m').2.2 ∧ Agree Q (stepT E t m).2.1 (stepT E t m').2.1 := by
  rcases t with ⟨ctl, stack, ign⟩
  have hr : ∀ (id : Nat) (f : Marks → Marks), Q id → Agree Q (setMark m id (f (m id))) (setMark m' id (f (m' id))) := by
    intro id f hq
    rw [h id hq]
    exact setMark_agree Q m m' h id _
  cases ctl with
  | run p =>
    cases p with
    | noswallow e => exact ⟨rfl, rfl, hr e.id (fun x => { x with swallow := false }) ht.1⟩
    | _ => exact ⟨rfl, rfl, h⟩
  | ret o =>
    cases stack with
    | nil => exact ⟨rfl, rfl, h⟩
    | cons f st =>
      cases f with
      | seq q => cases o <;> exact ⟨rfl, rfl, h⟩
      | fin q => exact ⟨rfl, rfl, h⟩
      | after o' => cases o <;> exact ⟨rfl, rfl, h⟩
      | except ts q => cases o <;> exact ⟨rfl, rfl, h⟩
      | handle c pass => cases o <;> exact ⟨rfl, rfl, h⟩
      | caught ts ensure nc prev =>
        cases o with
        | none => exact ⟨rfl, rfl, h⟩
        | some e =>
          simp only [stepT, stepRet]
          split <;> exact ⟨rfl, rfl, h⟩
      | swallow =>
        cases o with
        | none => exact ⟨rfl, rfl, h⟩
        | some e =>
          have hq : Q e.id := ht.1 e rfl
          simp only [stepT, stepRet, h e.id hq]
          exact ⟨trivial, trivial, h⟩
      | decorated =>
        cases o with
        | none => exact ⟨rfl, rfl, h⟩
        | some e => exact ⟨rfl, rfl, hr e.id (fun x => { x with swallow := false }) (ht.1 e rfl)⟩
  | handle c e s =>
    have hq : Q e.id := ht.1
    cases s with
    | ask => simp only [stepT, stepHandle, h e.id hq]; exact ⟨trivial, trivial, h⟩
    | mark => exact ⟨rfl, rfl, hr e.id (fun x => { x with handled := true }) hq⟩
    | askAdded => simp only [stepT, stepHandle, h e.id hq]; exact ⟨trivial, trivial, h⟩
    | markAdded => exact ⟨rfl, rfl, hr e.id (fun x => { x with added := true }) hq⟩
    | _ => exact ⟨rfl, rfl, h⟩
  | record e s =>
    have hq : Q e.id := ht.1
    cases s with
    | askAdded => simp only [stepT, stepRecord, h e.id hq]; exact ⟨trivial, trivial, h⟩
    | markAdded => exact ⟨rfl, rfl, hr e.id (fun x => { x with added := true }) hq⟩
    | _ => exact ⟨rfl, rfl, h⟩

/-- A step changes no marks of exceptions that the thread does not have. -/
theorem stepT_frame (E : Env T) (Q : Nat → Prop) (t : Thread T) (ht : TAll E.H (fun e => Q e.id) t) (m : Nat → Marks) (n : Nat) (hn : ¬ Q n) :
    (stepT E t m).2.1 n = m n := by
  rcases t with ⟨ctl, stack, ign⟩
  have ne : ∀ id, Q id → n ≠ id := fun id hq e => hn (e ▸ hq)
  cases ctl with
  | run p =>
    cases p with
    | noswallow e => exact setMark_other _ _ _ _ (ne e.id ht.1)
    | _ => rfl
  | ret o =>
    cases stack with
    | nil => rfl
    | cons f st =>
      cases f with
      | decorated =>
        cases o with
        | none => rfl
        | some e => exact setMark_other _ _ _ _ (ne e.id (ht.1 e rfl))
      | caught ts ensure nc prev =>
        cases o with
        | none => rfl
        | some e => simp only [stepT, stepRet]; split <;> rfl
      | _ => cases o <;> rfl
  | handle c e s =>
    cases s with
    | mark => exact setMark_other _ _ _ _ (ne e.id ht.1)
    | markAdded => exact setMark_other _ _ _ _ (ne e.id ht.1)
    | _ => rfl
  | record e s =>
    cases s with
    | markAdded => exact setMark_other _ _ _ _ (ne e.id ht.1)
    | _ => rfl

/-! ## A thread alone -/

/-- A thread alone with the marks and what happened. -/
structure Solo (T : Type) where
  t : Thread T
  m : Nat → Marks
  tr : List Ev

def solo1 (E : Env T) (a : Solo T) : Solo T :=
  ⟨(stepT E a.t a.m).1, (stepT E a.t a.m).2.1, a.tr ++ (stepT E a.t a.m).2.2⟩

def solo (E : Env T) : Nat → Solo T → Solo T
  | 0, a => a
  | k + 1, a => solo E k (solo1 E a)

theorem solo_add (E : Env T) (k j : Nat) (a : Solo T) : solo E (k + j) a = solo E j (solo E k a) := by
  induction k generalizing a with
  | zero => simp [solo]
  | succ k ih => rw [Nat.succ_add]; exact ih _

/-- The thread is at its end, with this outcome. -/
def Ended (t : Thread T) (o : Option (Exc T)) : Prop := t.ctl = .ret o ∧ t.stack = []

theorem stepT_ended (E : Env T) (t : Thread T) (o : Option (Exc T)) (h : Ended t o) (m : Nat → Marks) : stepT E t m = (t, m, []) := by
  rcases t with ⟨ctl, stack, ign⟩
  obtain ⟨h1, h2⟩ := h
  dsimp only at h1 h2
  subst h1; subst h2
  rfl

theorem solo_ended (E : Env T) (k : Nat) (a : Solo T) (o : Option (Exc T)) (h : Ended a.t o) : solo E k a = a := by
  induction k with
  | zero => rfl
  | succ k ih =>
    have : solo1 E a = a := by
      rcases a with ⟨t, m, tr⟩
      simp only [solo1, stepT_ended E t o h m, List.append_nil]
    simp only [solo, this, ih]

theorem solo_det (E : Env T) (k j : Nat) (a : Solo T) (o o' : Option (Exc T)) (hk : Ended (solo E k a).t o) (hj : Ended (solo E j a).t o') :
    solo E k a = solo E j a := by
  rcases Nat.le_total k j with h | h
  · obtain ⟨d, rfl⟩ := Nat.le.dest h
    rw [solo_add, solo_ended E d _ o hk]
  · obtain ⟨d, rfl⟩ := Nat.le.dest h
    rw [solo_add, solo_ended E d _ o' hj]

def Reach (E : Env T) (a b : Solo T) : Prop := ∃ k, solo E k a = b

theorem Reach.refl (E : Env T) (a : Solo T) : Reach E a a := ⟨0, rfl⟩

theorem Reach.trans {E : Env T} {a b c : Solo T} (h1 : Reach E a b) (h2 : Reach E b c) : Reach E a c := by
  obtain ⟨k, rfl⟩ := h1
  obtain ⟨j, rfl⟩ := h2
  exact ⟨k + j, solo_add E k j a⟩

theorem Reach.head {E : Env T} {a c : Solo T} (h : Reach E (solo1 E a) c) : Reach E a c := by
  obtain ⟨k, hk⟩ := h
  exact ⟨k + 1, hk⟩

theorem solo1_silent (E : Env T) (t t' : Thread T) (m m' : Nat → Marks) (tr : List Ev) (h : stepT E t m = (t', m', [])) :
    solo1 E ⟨t, m, tr⟩ = ⟨t', m', tr⟩ := by
  simp only [solo1, h, List.append_nil]

/-- What `add_exception` does, in steps. -/
theorem reach_add (E : Env T) (e : Exc T) (stk : List (Frame T)) (ign : List T) (st : St T) :
    Reach E ⟨⟨.record e .askAdded, stk, ign⟩, st.marks, st.trace⟩
      ⟨⟨.ret none, stk, ign⟩, (Exc.addException E.H e st).marks, (Exc.addException E.H e st).trace⟩ := by
  rcases hc : (st.marks e.id).added with _ | _
  · refine ⟨3, ?_⟩
    simp only [solo, solo1, stepT, stepRecord, hc, Exc.addException, Bool.false_eq_true, ↓reduceIte, List.append_nil]
    cases Exc.classify E.H e <;> simp [St.setMarks, St.emit] <;> rfl
  · refine ⟨1, ?_⟩
    simp [solo, solo1, stepT, stepRecord, hc, Exc.addException]

/-- What `_HandlingException.__exit__` does after the exception did not pass, in steps. -/
theorem reach_handle (E : Env T) (c : Cfg T) (pass : List T) (e : Exc T) (hp : E.H.inst e pass = false) (stk : List (Frame T)) (ign : List T) (st : St T) :
    Reach E ⟨⟨.handle c e .ask, stk, ign⟩, st.marks, st.trace⟩
      ⟨⟨.ret (Exc.handlingExit E c pass e st).1, stk, ign⟩, (Exc.handlingExit E c pass e st).2.marks, (Exc.handlingExit E c pass e st).2.trace⟩ := by
  have fin : ∀ (m : Nat → Marks) (tr : List Ev),
      solo1 E ⟨⟨.handle c e .finish, stk, ign⟩, m, tr⟩ =
        ⟨⟨if E.H.inst e E.skipTypes || E.H.inst e E.H.interruptTypes then .ret (some e)
          else if E.H.inst e (c.effSwallow E.H) then .ret none else .ret (some e), stk, ign⟩, m, tr⟩ := by
    intro m tr
    simp [solo1, stepT, stepHandle]
  have rest : ∀ (s : St T),
      Reach E ⟨⟨.handle c e .before, stk, ign⟩, s.marks, s.trace⟩
        (match E.beforeRaises e with
          | some e' => ⟨⟨.ret (some e'), stk, ign⟩, s.marks, s.trace ++ [.before e.id]⟩
          | none =>
            match E.afterRaises e with
            | some e' => ⟨⟨.ret (some e'), stk, ign⟩, s.marks, s.trace ++ [.before e.id] ++ [.after e.id]⟩
            | none =>
              ⟨⟨if E.H.inst e E.skipTypes || E.H.inst e E.H.interruptTypes then .ret (some e)
                else if E.H.inst e (c.effSwallow E.H) then .ret none else .ret (some e), stk, ign⟩, s.marks,
                s.trace ++ [.before e.id] ++ [.after e.id]⟩) := by
    intro s
    apply Reach.head
    cases hb : E.beforeRaises e with
    | some e' => simp only [solo1, stepT, stepHandle, hb]; exact Reach.refl E _
    | none =>
      simp only [solo1, stepT, stepHandle, hb]
      apply Reach.head
      cases ha : E.afterRaises e with
      | some e' => simp only [solo1, stepT, stepHandle, ha]; exact Reach.refl E _
      | none =>
        simp only [solo1, stepT, stepHandle, ha]
        apply Reach.head
        rw [fin]
        exact Reach.refl E _
  rcases hh : (st.marks e.id).handled with _ | _
  · -- not handled yet
    have key : ∃ s : St T, s = Exc.updateCurrentResult E e (st.setMarks e.id { st.marks e.id with handled := true }) ∧
        Reach E ⟨⟨.handle c e .ask, stk, ign⟩, st.marks, st.trace⟩ ⟨⟨.handle c e .before, stk, ign⟩, s.marks, s.trace⟩ := by
      refine ⟨_, rfl, ?_⟩
      cases hs : E.hasSession with
      | false =>
        refine ⟨2, ?_⟩
        simp [solo, solo1, stepT, stepHandle, hh, hs, Exc.updateCurrentResult, St.setMarks]
        rfl
      | true =>
        rcases ha : (st.marks e.id).added with _ | _
        · refine ⟨5, ?_⟩
          simp only [solo, solo1, stepT, stepHandle, hh, hs, Exc.updateCurrentResult, Exc.addException, St.setMarks, setMark, ha,
            Bool.false_eq_true, ↓reduceIte, List.append_nil]
          cases Exc.classify E.H e <;> (simp only [St.emit, List.append_nil]; first | rfl | (congr 1; done) | (simp; done) | (congr 1; funext i; simp))
        · refine ⟨3, ?_⟩
          simp [solo, solo1, stepT, stepHandle, hh, hs, Exc.updateCurrentResult, Exc.addException, St.setMarks, setMark, ha]
          rfl
    obtain ⟨s, hs, hr⟩ := key
    refine hr.trans ?_
    have := rest s
    simp only [Exc.handlingExit, hp, Exc.handleException, hh, ← hs, Bool.false_eq_true, ↓reduceIte]
    revert this
    cases E.beforeRaises e with
    | some e' => exact fun h => h
    | none =>
      cases E.afterRaises e with
      | some e' => exact fun h => h
      | none =>
        dsimp only [St.emit]
        split
        · exact fun h => h
        · split <;> exact fun h => h
  · apply Reach.head
    have e1 : solo1 E ⟨⟨.handle c e .ask, stk, ign⟩, st.marks, st.trace⟩ = ⟨⟨.handle c e .finish, stk, ign⟩, st.marks, st.trace⟩ := by
      simp [solo1, stepT, stepHandle, hh]
    rw [e1]
    apply Reach.head
    rw [fin]
    simp only [Exc.handlingExit, hp, Exc.handleException, hh, Bool.false_eq_true, ↓reduceIte]
    split
    · exact Reach.refl E _
    · split <;> exact Reach.refl E _

/-- The steps of a script on its own lead to what `Exc.eval` says. -/
theorem reach_eval (E : Env T) (p : Prog T) : ∀ (stk : List (Frame T)) (ign : List T) (m : Nat → Marks) (tr : List Ev),
    Reach E ⟨⟨.run p, stk, ign⟩, m, tr⟩
      ⟨⟨.ret (Exc.eval E p ⟨m, ign, tr⟩).1, stk, ign⟩, (Exc.eval E p ⟨m, ign, tr⟩).2.marks, (Exc.eval E p ⟨m, ign, tr⟩).2.trace⟩ ∧
    (Exc.eval E p ⟨m, ign, tr⟩).2.ignored = ign := by
  have nadd : ∀ (e : Exc T) (s : St T), (Exc.addException E.H e s).ignored = s.ignored := by
    intro e s
    simp only [Exc.addException]
    split
    · rfl
    · split <;> rfl
  have nex : ∀ (c : Cfg T) (pass : List T) (e : Exc T) (s : St T), (Exc.handlingExit E c pass e s).2.ignored = s.ignored := by
    intro c pass e s
    have hh : (Exc.handleException E e s).2.ignored = s.ignored := by
      have hu : ∀ s : St T, (Exc.updateCurrentResult E e s).ignored = s.ignored := by
        intro s
        simp only [Exc.updateCurrentResult]
        split
        · exact nadd e s
        · rfl
      simp only [Exc.handleException]
      split
      · rfl
      · split <;> exact hu _
    simp only [Exc.handlingExit]
    split
    · rfl
    · revert hh
      rcases Exc.handleException E e s with ⟨_ | e', s'⟩
      · intro hh
        dsimp only
        split
        · exact hh
        · split <;> exact hh
      · exact fun hh => hh
  have step : ∀ {a b c : Solo T}, solo1 E a = b → Reach E b c → Reach E a c := by
    intro a b c h1 h2
    subst h1
    exact Reach.head h2
  induction p with
  | done => exact fun stk ign m tr => ⟨step (solo1_silent E _ _ _ _ tr rfl) (Reach.refl E _), rfl⟩
  | raise e => exact fun stk ign m tr => ⟨step (solo1_silent E _ _ _ _ tr rfl) (Reach.refl E _), rfl⟩
  | seq p q ihp ihq =>
    intro stk ign m tr
    obtain ⟨h1, h2⟩ := ihp (.seq q :: stk) ign m tr
    simp only [Exc.eval]
    revert h1 h2
    rcases Exc.eval E p ⟨m, ign, tr⟩ with ⟨_ | e, m1, ign1, tr1⟩
    · intro h1 h2
      dsimp only at h1 h2
      subst h2
      obtain ⟨h3, h4⟩ := ihq stk ign1 m1 tr1
      exact ⟨step (solo1_silent E _ _ _ _ tr rfl) (h1.trans (step (solo1_silent E _ _ _ _ tr1 rfl) h3)), h4⟩
    · intro h1 h2
      exact ⟨step (solo1_silent E _ _ _ _ tr rfl) (h1.trans (step (solo1_silent E _ _ _ _ tr1 rfl) (Reach.refl E _))), h2⟩
  | tryFinally p q ihp ihq =>
    intro stk ign m tr
    obtain ⟨h1, h2⟩ := ihp (.fin q :: stk) ign m tr
    simp only [Exc.eval]
    revert h1 h2
    rcases Exc.eval E p ⟨m, ign, tr⟩ with ⟨o, m1, ign1, tr1⟩
    intro h1 h2
    dsimp only at h1 h2
    subst h2
    obtain ⟨h3, h4⟩ := ihq (.after o :: stk) ign1 m1 tr1
    dsimp only
    have h0 := step (solo1_silent E ⟨.run (.tryFinally p q), stk, ign1⟩ _ m _ tr rfl) (h1.trans (step (solo1_silent E ⟨.ret o, .fin q :: stk, ign1⟩ _ m1 _ tr1 rfl) h3))
    revert h0 h4
    rcases Exc.eval E q ⟨m1, ign1, tr1⟩ with ⟨_ | e, m2, ign2, tr2⟩
    · intro h4 h0
      exact ⟨h0.trans (step (solo1_silent E _ _ _ _ tr2 rfl) (Reach.refl E _)), h4⟩
    · intro h4 h0
      exact ⟨h0.trans (step (solo1_silent E _ _ _ _ tr2 rfl) (Reach.refl E _)), h4⟩
  | tryExcept ts p q ihp ihq =>
    intro stk ign m tr
    obtain ⟨h1, h2⟩ := ihp (.except ts q :: stk) ign m tr
    simp only [Exc.eval]
    revert h1 h2
    rcases Exc.eval E p ⟨m, ign, tr⟩ with ⟨_ | e, m1, ign1, tr1⟩
    · intro h1 h2
      exact ⟨step (solo1_silent E _ _ _ _ tr rfl) (h1.trans (step (solo1_silent E _ _ _ _ tr1 rfl) (Reach.refl E _))), h2⟩
    · intro h1 h2
      dsimp only at h1 h2
      subst h2
      dsimp only
      have h0 := step (solo1_silent E ⟨.run (.tryExcept ts p q), stk, ign1⟩ _ m _ tr rfl) (h1.trans (step (solo1_silent E ⟨.ret (some e), .except ts q :: stk, ign1⟩ _ m1 _ tr1 rfl) (Reach.refl E _)))
      cases hi : E.H.inst e ts with
      | true =>
        simp only [hi, ↓reduceIte] at h0 ⊢
        obtain ⟨h3, h4⟩ := ihq stk ign1 m1 tr1
        exact ⟨h0.trans h3, h4⟩
      | false =>
        simp only [hi, Bool.false_eq_true, ↓reduceIte] at h0 ⊢
        exact ⟨h0, trivial⟩
  | handling c p ihp =>
    intro stk ign m tr
    obtain ⟨h1, h2⟩ := ihp (.handle c (c.passthrough ++ ign) :: stk) ign m tr
    simp only [Exc.eval]
    revert h1 h2
    rcases Exc.eval E p ⟨m, ign, tr⟩ with ⟨_ | e, m1, ign1, tr1⟩
    · intro h1 h2
      exact ⟨step (solo1_silent E _ _ _ _ tr rfl) (h1.trans (step (solo1_silent E _ _ _ _ tr1 rfl) (Reach.refl E _))), h2⟩
    · intro h1 h2
      dsimp only at h1 h2
      subst h2
      dsimp only
      refine ⟨?_, nex _ _ _ _⟩
      have h0 := step (solo1_silent E ⟨.run (.handling c p), stk, ign1⟩ _ m _ tr rfl) (h1.trans (step (solo1_silent E ⟨.ret (some e), .handle c (c.passthrough ++ ign1) :: stk, ign1⟩ _ m1 _ tr1 rfl) (Reach.refl E _)))
      cases hi : E.H.inst e (c.passthrough ++ ign1) with
      | true =>
        simp only [hi, Exc.handlingExit, ↓reduceIte] at h0 ⊢
        exact h0
      | false =>
        simp only [hi, Bool.false_eq_true, ↓reduceIte] at h0
        exact h0.trans (reach_handle E c _ e hi stk ign1 ⟨m1, ign1, tr1⟩)
  | assertRaises ts nc p ihp =>
    intro stk ign m tr
    obtain ⟨h1, -⟩ := ihp (.caught ts true nc ign :: stk) (ign ++ ts) m tr
    simp only [Exc.eval]
    revert h1
    rcases Exc.eval E p ⟨m, ign ++ ts, tr⟩ with ⟨_ | e, m1, ign1, tr1⟩
    · intro h1
      exact ⟨step (solo1_silent E _ _ _ _ tr rfl) (h1.trans (step (solo1_silent E _ _ _ _ tr1 rfl) (Reach.refl E _))), rfl⟩
    · intro h1
      have h0 := step (solo1_silent E ⟨.run (.assertRaises ts nc p), stk, ign⟩ _ m _ tr rfl) h1
      dsimp only [Exc.caughtExit] at h0 ⊢
      cases hi : E.H.inst e ts with
      | true =>
        simp only [↓reduceIte]
        refine ⟨h0.trans (step ?_ (Reach.refl E _)), rfl⟩
        simp [solo1, stepT, stepRet, hi, St.emit]
      | false =>
        simp only [Bool.false_eq_true, ↓reduceIte]
        refine ⟨h0.trans (step ?_ (Reach.refl E _)), trivial⟩
        simp [solo1, stepT, stepRet, hi]
  | allowing ts p ihp =>
    intro stk ign m tr
    obtain ⟨h1, -⟩ := ihp (.caught ts false 0 ign :: stk) (ign ++ ts) m tr
    simp only [Exc.eval]
    revert h1
    rcases Exc.eval E p ⟨m, ign ++ ts, tr⟩ with ⟨_ | e, m1, ign1, tr1⟩
    · intro h1
      exact ⟨step (solo1_silent E _ _ _ _ tr rfl) (h1.trans (step (solo1_silent E _ _ _ _ tr1 rfl) (Reach.refl E _))), rfl⟩
    · intro h1
      have h0 := step (solo1_silent E ⟨.run (.allowing ts p), stk, ign⟩ _ m _ tr rfl) h1
      dsimp only [Exc.caughtExit] at h0 ⊢
      cases hi : E.H.inst e ts with
      | true =>
        simp only [↓reduceIte]
        refine ⟨h0.trans (step ?_ (Reach.refl E _)), rfl⟩
        simp [solo1, stepT, stepRet, hi, St.emit]
      | false =>
        simp only [Bool.false_eq_true, ↓reduceIte]
        refine ⟨h0.trans (step ?_ (Reach.refl E _)), trivial⟩
        simp [solo1, stepT, stepRet, hi]
  | swallowing p ihp =>
    intro stk ign m tr
    obtain ⟨h1, h2⟩ := ihp (.swallow :: stk) ign m tr
    simp only [Exc.eval]
    revert h1 h2
    rcases Exc.eval E p ⟨m, ign, tr⟩ with ⟨_ | e, m1, ign1, tr1⟩
    · intro h1 h2
      exact ⟨step (solo1_silent E _ _ _ _ tr rfl) (h1.trans (step (solo1_silent E _ _ _ _ tr1 rfl) (Reach.refl E _))), h2⟩
    · intro h1 h2
      dsimp only at h1 h2
      subst h2
      dsimp only
      have h0 := step (solo1_silent E ⟨.run (.swallowing p), stk, ign1⟩ _ m _ tr rfl) (h1.trans (step (solo1_silent E ⟨.ret (some e), .swallow :: stk, ign1⟩ _ m1 _ tr1 rfl) (Reach.refl E _)))
      cases hi : (m1 e.id).swallow with
      | true =>
        simp only [hi, ↓reduceIte] at h0 ⊢
        exact ⟨h0, trivial⟩
      | false =>
        simp only [hi, Bool.false_eq_true, ↓reduceIte] at h0 ⊢
        exact ⟨h0, trivial⟩
  | record e =>
    intro stk ign m tr
    exact ⟨step (solo1_silent E _ _ _ _ tr rfl) (reach_add E e stk ign ⟨m, ign, tr⟩), nadd e _⟩
  | noswallow e =>
    exact fun stk ign m tr => ⟨step (solo1_silent E _ _ _ _ tr rfl) (Reach.refl E _), rfl⟩
  | decorated p ihp =>
    intro stk ign m tr
    obtain ⟨h1, h2⟩ := ihp (.decorated :: stk) ign m tr
    simp only [Exc.eval]
    revert h1 h2
    rcases Exc.eval E p ⟨m, ign, tr⟩ with ⟨_ | e, m1, ign1, tr1⟩
    · intro h1 h2
      exact ⟨step (solo1_silent E _ _ _ _ tr rfl) (h1.trans (step (solo1_silent E _ _ _ _ tr1 rfl) (Reach.refl E _))), h2⟩
    · intro h1 h2
      exact ⟨step (solo1_silent E _ _ _ _ tr rfl) (h1.trans (step (solo1_silent E _ _ _ _ tr1 rfl) (Reach.refl E _))), h2⟩

/-! ## All threads -/

/-- What happened in thread `i`. -/
def inThread (i : Nat) (tr : List (Nat × Ev)) : List Ev := tr.filterMap (fun x => if x.1 = i then some x.2 else none)

theorem inThread_append (i : Nat) (a b : List (Nat × Ev)) : inThread i (a ++ b) = inThread i a ++ inThread i b := by
  simp [inThread, List.filterMap_append]

theorem inThread_same (i : Nat) (l : List Ev) : inThread i (l.map (fun e => (i, e))) = l := by
  induction l with
  | nil => rfl
  | cons a l ih => simp only [inThread, List.map_cons, List.filterMap_cons, ↓reduceIte] at ih ⊢; rw [ih]

theorem inThread_other (i j : Nat) (h : j ≠ i) (l : List Ev) : inThread i (l.map (fun e => (j, e))) = [] := by
  induction l with
  | nil => rfl
  | cons a l ih => simp only [inThread, List.map_cons, List.filterMap_cons, h, ↓reduceIte] at ih ⊢; rw [ih]

theorem exec_append (E : Env T) (s : Sys T) (a b : List Nat) : exec E s (a ++ b) = exec E (exec E s a) b := by
  induction a generalizing s with
  | nil => rfl
  | cons x a ih => exact ih _

/-- An execution looks to a thread like its own steps alone, if no other thread has its exceptions. -/
theorem exec_sim (E : Env T) (own : Nat → Nat) (hE : ∀ i, EAll E (fun e => own e.id = i)) (i : Nat) (l : List Nat) :
    ∀ (s : Sys T) (a : Solo T), (∀ j, TAll E.H (fun e => own e.id = j) (s.threads j)) → s.threads i = a.t →
      Agree (fun n => own n = i) s.marks a.m → inThread i s.trace = a.tr →
      (exec E s l).threads i = (solo E (l.count i) a).t ∧ Agree (fun n => own n = i) (exec E s l).marks (solo E (l.count i) a).m ∧
      inThread i (exec E s l).trace = (solo E (l.count i) a).tr := by
  induction l with
  | nil => exact fun s a _ h1 h2 h3 => ⟨h1, h2, h3⟩
  | cons j l ih =>
    intro s a hs h1 h2 h3
    have hs' : ∀ k, TAll E.H (fun e => own e.id = k) ((step E s j).threads k) := by
      intro k
      simp only [step]
      by_cases hk : k = j
      · subst hk
        simp only [↓reduceIte]
        exact stepT_all E _ (hE k) _ (hs k) _
      · simp only [hk, ↓reduceIte]
        exact hs k
    by_cases hj : j = i
    · subst hj
      rw [List.count_cons_self]
      obtain ⟨g1, g2, g3⟩ := stepT_local E (fun n => own n = j) (s.threads j) (hs j) s.marks a.m h2
      rw [h1] at g1 g2 g3
      refine ih (step E s j) (solo1 E a) hs' ?_ ?_ ?_
      · simp only [step, ↓reduceIte, solo1, h1]; exact g1
      · simp only [step, solo1, h1]; exact g3
      · simp only [step, solo1, inThread_append, inThread_same, h1, h3, g2]
    · rw [List.count_cons_of_ne hj]
      refine ih (step E s j) a hs' ?_ ?_ ?_
      · have : i ≠ j := fun e => hj e.symm
        simp only [step, this, ↓reduceIte]; exact h1
      · intro n hn
        have hn' : own n = i := hn
        have : ¬ own n = j := fun e => hj (e.symm.trans hn')
        exact (stepT_frame E (fun n => own n = j) (s.threads j) (hs j) s.marks n this).trans (h2 n hn)
      · simp only [step, inThread_append, inThread_other i j hj, List.append_nil]; exact h3

/-! ## Steps come to an end -/

def wP : Prog T → Nat
  | .done => 1
  | .raise _ => 1
  | .seq p q => wP p + wP q + 2
  | .tryFinally p q => wP p + wP q + 4
  | .tryExcept _ p q => wP p + wP q + 2
  | .handling _ p => wP p + 10
  | .assertRaises _ _ p => wP p + 2
  | .allowing _ p => wP p + 2
  | .swallowing p => wP p + 2
  | .record _ => 5
  | .noswallow _ => 1
  | .decorated p => wP p + 2

def wF : Frame T → Nat
  | .seq q => wP q + 1
  | .fin q => wP q + 3
  | .after _ => 1
  | .except _ q => wP q + 1
  | .handle _ _ => 9
  | .caught _ _ _ _ => 1
  | .swallow => 1
  | .decorated => 1

def wS : Stage → Nat
  | .ask => 8
  | .mark => 7
  | .askAdded => 6
  | .markAdded => 5
  | .add => 4
  | .before => 3
  | .after => 2
  | .finish => 1

def wC : Ctl T → Nat
  | .run p => wP p
  | .ret _ => 0
  | .handle _ _ s => wS s
  | .record _ .askAdded => 4
  | .record _ .markAdded => 3
  | .record _ _ => 2

def wT (t : Thread T) : Nat := wC t.ctl + (t.stack.map wF).sum

theorem wT_zero (t : Thread T) (h : wT t = 0) : ∃ o, Ended t o := by
  rcases t with ⟨ctl, stack, ign⟩
  simp only [wT] at h
  have hc : wC ctl = 0 := by omega
  have hs : (stack.map wF).sum = 0 := by omega
  have : stack = [] := by
    cases stack with
    | nil => rfl
    | cons f st => cases f <;> simp [wF] at hs
  subst this
  cases ctl with
  | ret o => exact ⟨o, rfl, rfl⟩
  | run p => cases p <;> simp [wC, wP] at hc
  | handle c e s => cases s <;> simp [wC, wS] at hc
  | record e s => cases s <;> simp [wC] at hc

theorem wT_step (E : Env T) (t : Thread T) (m : Nat → Marks) : wT (stepT E t m).1 ≤ wT t - 1 := by
  rcases t with ⟨ctl, stack, ign⟩
  cases ctl with
  | run p => cases p <;> simp [stepT, stepRun, wT, wC, wP, wF] <;> omega
  | ret o =>
    cases stack with
    | nil => simp [stepT, wT, wC]
    | cons f st =>
      cases f with
      | except ts q =>
        cases o with
        | none => simp [stepT, stepRet, wT, wC, wF] <;> omega
        | some e => simp only [stepT, stepRet, wT]; split <;> simp [wC, wF] <;> omega
      | handle c pass =>
        cases o with
        | none => simp [stepT, stepRet, wT, wC, wF] <;> omega
        | some e => simp only [stepT, stepRet, wT]; split <;> simp [wC, wF, wS] <;> omega
      | caught ts ensure nc prev =>
        cases o with
        | none => simp [stepT, stepRet, wT, wC, wF]
        | some e => simp only [stepT, stepRet]; split <;> simp [wT, wC, wF]
      | swallow =>
        cases o with
        | none => simp [stepT, stepRet, wT, wC, wF]
        | some e => simp only [stepT, stepRet, wT]; split <;> simp [wC, wF]
      | _ => cases o <;> simp [stepT, stepRet, wT, wC, wF] <;> omega
  | handle c e s =>
    cases s with
    | ask => simp only [stepT, stepHandle, wT]; split <;> simp [wC, wS] <;> omega
    | mark => simp only [stepT, stepHandle, wT]; split <;> simp [wC, wS] <;> omega
    | askAdded => simp only [stepT, stepHandle, wT]; split <;> simp [wC, wS] <;> omega
    | before => simp only [stepT, stepHandle, wT]; split <;> simp [wC, wS] <;> omega
    | after => simp only [stepT, stepHandle, wT]; split <;> simp [wC, wS] <;> omega
    | finish =>
      simp only [stepT, stepHandle, wT]
      split
      · simp [wC, wS]
      · split <;> simp [wC, wS]
    | _ => simp [stepT, stepHandle, wT, wC, wS] <;> omega
  | record e s =>
    cases s with
    | askAdded => simp only [stepT, stepRecord, wT]; split <;> simp [wC] <;> omega
    | _ => simp [stepT, stepRecord, wT, wC] <;> omega

theorem exec_weight (E : Env T) (i : Nat) (l : List Nat) : ∀ s : Sys T, wT ((exec E s l).threads i) ≤ wT (s.threads i) - l.count i := by
  induction l with
  | nil => intro s; simp [exec]
  | cons j l ih =>
    intro s
    have h := ih (step E s j)
    simp only [exec]
    by_cases hj : j = i
    · subst hj
      rw [List.count_cons_self]
      have : wT ((step E s j).threads j) ≤ wT (s.threads j) - 1 := by
        simp only [step, ↓reduceIte]; exact wT_step E _ _
      omega
    · rw [List.count_cons_of_ne hj]
      have hi : i ≠ j := fun e => hj e.symm
      have : (step E s j).threads i = s.threads i := by simp only [step, hi, ↓reduceIte]
      rw [this] at h
      exact h

/-- Steps of one thread only, from any state. -/
theorem exec_only (E : Env T) (i : Nat) (k : Nat) : ∀ (s : Sys T) (pre : List Ev),
    (∀ j, j ≠ i → (exec E s (List.replicate k i)).threads j = s.threads j) ∧
    (exec E s (List.replicate k i)).threads i = (solo E k ⟨s.threads i, s.marks, pre⟩).t ∧
    (exec E s (List.replicate k i)).marks = (solo E k ⟨s.threads i, s.marks, pre⟩).m ∧
    (s.trace.map Prod.snd = pre → (exec E s (List.replicate k i)).trace.map Prod.snd = (solo E k ⟨s.threads i, s.marks, pre⟩).tr) := by
  induction k with
  | zero => exact fun s pre => ⟨fun _ _ => rfl, rfl, rfl, fun h => h⟩
  | succ k ih =>
    intro s pre
    have e1 : (step E s i).threads i = (stepT E (s.threads i) s.marks).1 := by simp [step]
    have h := ih (step E s i) (pre ++ (stepT E (s.threads i) s.marks).2.2)
    rw [e1] at h
    refine ⟨fun j hj => ?_, h.2.1, h.2.2.1, fun hp => h.2.2.2 ?_⟩
    · refine (h.1 j hj).trans ?_
      simp only [step, hj, ↓reduceIte]
    · simp [step, List.map_append, hp, Function.comp_def]

/-! ## Nothing is lost -/

/-- About to be added to a result. -/
def atAdd (n : Nat) : Ctl T → Prop
  | .handle _ e .add => e.id = n
  | .record e .add => e.id = n
  | _ => False

/-- Marked as handled, not yet as added. -/
def asking (n : Nat) : Ctl T → Prop
  | .handle _ e .askAdded => e.id = n
  | .handle _ e .markAdded => e.id = n
  | _ => False

/-- Past the mark of being added. -/
def past (n : Nat) : Ctl T → Prop
  | .handle _ e .add => e.id = n
  | .handle _ e .before => e.id = n
  | .handle _ e .after => e.id = n
  | _ => False

/-- What a step does to the marks and to what happened. -/
structure Facts (E : Env T) (n : Nat) (t t' : Thread T) (m m' : Nat → Marks) (evs : List Ev) : Prop where
  mono : (m n).added = true → (m' n).added = true
  fresh : (m' n).added = true → (m n).added = true ∨ atAdd n t'.ctl
  adds : atAdd n t.ctl → ∀ cls : Nat → T, TAll E.H (fun e => e.cls = cls e.id) t →
    ∀ k, Exc.classify E.H ⟨n, cls n⟩ = some k → Ev.entry n k ∈ evs
  handled : (m' n).handled = true → (m n).handled = true ∨ asking n t'.ctl
  asks : asking n t.ctl → (m' n).added = true ∨ asking n t'.ctl
  passed : (past n t.ctl → (m n).added = true) → past n t'.ctl → (m' n).added = true
  hook : (past n t.ctl → (m n).added = true) → Ev.before n ∈ evs → (m' n).added = true

/-- Control that is neither adding nor handling. -/
def idle : Ctl T → Prop
  | .run _ => True
  | .ret _ => True
  | .handle _ _ .ask => True
  | .record _ .askAdded => True
  | _ => False

theorem idle_atAdd {n : Nat} {c : Ctl T} (h : idle c) : ¬ atAdd n c := by
  cases c with
  | handle c e s => cases s <;> first | exact h.elim | exact fun h => h
  | record e s => cases s <;> first | exact h.elim | exact fun h => h
  | _ => exact fun h => h

theorem idle_past {n : Nat} {c : Ctl T} (h : idle c) : ¬ past n c := by
  cases c with
  | handle c e s => cases s <;> first | exact h.elim | exact fun h => h
  | _ => exact fun h => h

theorem idle_asking {n : Nat} {c : Ctl T} (h : idle c) : ¬ asking n c := by
  cases c with
  | handle c e s => cases s <;> first | exact h.elim | exact fun h => h
  | _ => exact fun h => h

theorem facts_quiet (E : Env T) (n : Nat) (t t' : Thread T) (m m' : Nat → Marks) (evs : List Ev) (h0 : idle t.ctl) (h1 : idle t'.ctl)
    (ha : (m' n).added = (m n).added) (hh : (m' n).handled = (m n).handled) (hb : Ev.before n ∉ evs) : Facts E n t t' m m' evs where
  mono h := ha.trans h
  fresh h := .inl (ha ▸ h)
  adds h := (idle_atAdd h0 h).elim
  handled h := .inl (hh ▸ h)
  asks h := (idle_asking h0 h).elim
  passed _ h := (idle_past h1 h).elim
  hook _ h := (hb h).elim

theorem setMark_swallow (m : Nat → Marks) (id n : Nat) :
    (setMark m id { m id with swallow := false } n).added = (m n).added ∧ (setMark m id { m id with swallow := false } n).handled = (m n).handled := by
  simp only [setMark]
  split
  · subst_vars; exact ⟨rfl, rfl⟩
  · exact ⟨rfl, rfl⟩

theorem setMark_added (m : Nat → Marks) (id n : Nat) :
    ((setMark m id { m id with added := true } n).added = true ↔ (m n).added = true ∨ id = n) ∧
    (setMark m id { m id with added := true } n).handled = (m n).handled := by
  simp only [setMark]
  by_cases h : n = id
  · subst h; simp
  · have h' : ¬ id = n := fun e => h e.symm
    simp [h, h']

theorem setMark_handled (m : Nat → Marks) (id n : Nat) :
    ((setMark m id { m id with handled := true } n).handled = true ↔ (m n).handled = true ∨ id = n) ∧
    (setMark m id { m id with handled := true } n).added = (m n).added := by
  simp only [setMark]
  by_cases h : n = id
  · subst h; simp
  · have h' : ¬ id = n := fun e => h e.symm
    simp [h, h']

theorem stepT_facts (E : Env T) (hs : E.hasSession = true) (n : Nat) (t : Thread T) (m : Nat → Marks) :
    Facts E n t (stepT E t m).1 m (stepT E t m).2.1 (stepT E t m).2.2 := by
  rcases t with ⟨ctl, stack, ign⟩
  have nn : Ev.before n ∉ ([] : List Ev) := fun h => nomatch h
  have cl : ∀ (e : Exc T), e.id = n → ∀ cls : Nat → T, e.cls = cls e.id → ∀ k, Exc.classify E.H ⟨n, cls n⟩ = some k →
      Ev.entry n k ∈ (match Exc.classify E.H e with | some k => [Ev.entry e.id k] | none => []) := by
    intro e he cls hc k hk
    have : e = ⟨n, cls n⟩ := by cases e; dsimp only at he hc; subst he; rw [hc]
    subst this
    simp only [hk, List.mem_singleton]
  have nb : ∀ (e : Exc T), Ev.before n ∉ (match Exc.classify E.H e with | some k => [Ev.entry e.id k] | none => []) := by
    intro e
    cases Exc.classify E.H e <;> simp
  cases ctl with
  | run p =>
    cases p with
    | noswallow e => exact facts_quiet E n _ _ _ _ _ trivial trivial (setMark_swallow m e.id n).1 (setMark_swallow m e.id n).2 nn
    | _ => exact facts_quiet E n _ _ _ _ _ trivial trivial rfl rfl nn
  | ret o =>
    cases stack with
    | nil => exact facts_quiet E n _ _ _ _ _ trivial trivial rfl rfl nn
    | cons f st =>
      cases f with
      | except ts q =>
        cases o with
        | none => exact facts_quiet E n _ _ _ _ _ trivial trivial rfl rfl nn
        | some e =>
          refine facts_quiet E n _ _ _ _ _ trivial ?_ rfl rfl nn
          simp only [stepT, stepRet]; split <;> trivial
      | handle c pass =>
        cases o with
        | none => exact facts_quiet E n _ _ _ _ _ trivial trivial rfl rfl nn
        | some e =>
          refine facts_quiet E n _ _ _ _ _ trivial ?_ rfl rfl nn
          simp only [stepT, stepRet]; split <;> trivial
      | caught ts ensure nc prev =>
        cases o with
        | none => exact facts_quiet E n _ _ _ _ _ trivial trivial rfl rfl nn
        | some e =>
          simp only [stepT, stepRet]
          split
          · exact facts_quiet E n _ _ _ _ _ trivial trivial rfl rfl (by simp)
          · exact facts_quiet E n _ _ _ _ _ trivial trivial rfl rfl nn
      | swallow =>
        cases o with
        | none => exact facts_quiet E n _ _ _ _ _ trivial trivial rfl rfl nn
        | some e =>
          refine facts_quiet E n _ _ _ _ _ trivial ?_ rfl rfl nn
          simp only [stepT, stepRet]; split <;> trivial
      | decorated =>
        cases o with
        | none => exact facts_quiet E n _ _ _ _ _ trivial trivial rfl rfl nn
        | some e => exact facts_quiet E n _ _ _ _ _ trivial trivial (setMark_swallow m e.id n).1 (setMark_swallow m e.id n).2 nn
      | _ => cases o <;> exact facts_quiet E n _ _ _ _ _ trivial trivial rfl rfl nn
  | handle c e s =>
    cases s with
    | ask =>
      simp only [stepT, stepHandle]
      split <;>
        exact { mono := fun h => h, fresh := fun h => .inl h, adds := fun h => h.elim, handled := fun h => .inl h, asks := fun h => h.elim,
                passed := fun _ h => h.elim, hook := fun _ h => (nn h).elim }
    | mark =>
      have hm := setMark_handled m e.id n
      simp only [stepT, stepHandle, hs, ↓reduceIte]
      exact { mono := fun h => hm.2.trans h, fresh := fun h => .inl (hm.2 ▸ h), adds := fun h => h.elim,
              handled := fun h => hm.1.1 h, asks := fun h => h.elim,
              passed := fun _ h => h.elim, hook := fun _ h => (nn h).elim }
    | askAdded =>
      simp only [stepT, stepHandle]
      split
      · rename_i ha
        exact { mono := fun h => h, fresh := fun h => .inl h, adds := fun h => h.elim, handled := fun h => .inl h,
                asks := fun h => .inl (by have h : e.id = n := h; subst h; exact ha),
                passed := fun _ h => (by have h : e.id = n := h; subst h; exact ha), hook := fun _ h => (nn h).elim }
      · exact { mono := fun h => h, fresh := fun h => .inl h, adds := fun h => h.elim, handled := fun h => .inl h, asks := fun h => .inr h,
                passed := fun _ h => h.elim, hook := fun _ h => (nn h).elim }
    | markAdded =>
      have hm := setMark_added m e.id n
      exact { mono := fun h => hm.1.2 (.inl h), fresh := fun h => hm.1.1 h, adds := fun h => h.elim, handled := fun h => .inl (hm.2 ▸ h),
              asks := fun h => .inl (hm.1.2 (.inr h)), passed := fun _ h => hm.1.2 (.inr h), hook := fun _ h => (nn h).elim }
    | add =>
      exact { mono := fun h => h, fresh := fun h => .inl h, adds := fun h cls hc k hk => cl e h cls hc.1 k hk, handled := fun h => .inl h,
              asks := fun h => h.elim, passed := fun h0 h => h0 h, hook := fun _ h => (nb e h).elim }
    | before =>
      refine { mono := fun h => h, fresh := fun h => .inl h, adds := fun h => h.elim, handled := fun h => .inl h,
               asks := fun h => h.elim, passed := fun h0 h => h0 ?_, hook := fun h0 h => h0 ?_ }
      · simp only [stepT, stepHandle] at h
        revert h
        cases E.beforeRaises e with
        | none => exact fun h => h
        | some e' => exact fun h => h.elim
      · simp only [stepT, stepHandle, List.mem_singleton, Ev.before.injEq] at h
        exact h.symm
    | after =>
      refine { mono := fun h => h, fresh := fun h => .inl h, adds := fun h => h.elim, handled := fun h => .inl h,
               asks := fun h => h.elim, passed := fun _ h => ?_, hook := fun _ h => ?_ }
      · simp only [stepT, stepHandle] at h
        revert h
        cases E.afterRaises e <;> exact fun h => h.elim
      · simp [stepT, stepHandle] at h
    | finish =>
      simp only [stepT, stepHandle]
      refine { mono := fun h => h, fresh := fun h => .inl h, adds := fun h => h.elim, handled := fun h => .inl h,
               asks := fun h => h.elim, passed := fun _ h => ?_, hook := fun _ h => (nn h).elim }
      revert h
      dsimp only
      split
      · exact fun h => h.elim
      · split <;> exact fun h => h.elim
  | record e s =>
    cases s with
    | askAdded =>
      simp only [stepT, stepRecord]
      split <;>
        exact { mono := fun h => h, fresh := fun h => .inl h, adds := fun h => h.elim, handled := fun h => .inl h, asks := fun h => h.elim,
                passed := fun _ h => h.elim, hook := fun _ h => (nn h).elim }
    | markAdded =>
      have hm := setMark_added m e.id n
      exact { mono := fun h => hm.1.2 (.inl h), fresh := fun h => hm.1.1 h, adds := fun h => h.elim, handled := fun h => .inl (hm.2 ▸ h),
              asks := fun h => h.elim, passed := fun _ h => h.elim, hook := fun _ h => (nn h).elim }
    | add =>
      exact { mono := fun h => h, fresh := fun h => .inl h, adds := fun h cls hc k hk => cl e h cls hc.1 k hk, handled := fun h => .inl h,
              asks := fun h => h.elim, passed := fun _ h => h.elim, hook := fun _ h => (nb e h).elim }
    | _ =>
      exact { mono := fun h => h, fresh := fun h => .inl h, adds := fun h => h.elim, handled := fun h => .inl h, asks := fun h => h.elim,
              passed := fun _ h => h.elim, hook := fun _ h => (nn h).elim }

/-- What holds at every point of every execution. -/
structure Safe (E : Env T) (cls : Nat → T) (n : Nat) (k : Entry) (s : Sys T) : Prop where
  coh : ∀ j, TAll E.H (fun e => e.cls = cls e.id) (s.threads j)
  added : (s.marks n).added = true → (∃ j, (j, Ev.entry n k) ∈ s.trace) ∨ ∃ j, atAdd n (s.threads j).ctl
  handled : (s.marks n).handled = true → (s.marks n).added = true ∨ ∃ j, asking n (s.threads j).ctl
  past : ∀ j, past n (s.threads j).ctl → (s.marks n).added = true
  hook : ∀ j, (j, Ev.before n) ∈ s.trace → (s.marks n).added = true

theorem step_safe (E : Env T) (hs : E.hasSession = true) (cls : Nat → T) (hE : EAll E (fun e => e.cls = cls e.id)) (n : Nat) (k : Entry)
    (hk : Exc.classify E.H ⟨n, cls n⟩ = some k) (s : Sys T) (h : Safe E cls n k s) (i : Nat) : Safe E cls n k (step E s i) := by
  have f := stepT_facts E hs n (s.threads i) s.marks
  have ti : (step E s i).threads i = (stepT E (s.threads i) s.marks).1 := by simp [step]
  have tj : ∀ j, j ≠ i → (step E s i).threads j = s.threads j := by intro j hj; simp [step, hj]
  have tm : (step E s i).marks = (stepT E (s.threads i) s.marks).2.1 := rfl
  have tt : (step E s i).trace = s.trace ++ (stepT E (s.threads i) s.marks).2.2.map (fun e => (i, e)) := rfl
  refine ⟨fun j => ?_, fun ha => ?_, fun ha => ?_, fun j hj => ?_, fun j hj => ?_⟩
  · by_cases hj : j = i
    · subst hj; rw [ti]; exact stepT_all E _ hE _ (h.coh j) _
    · rw [tj j hj]; exact h.coh j
  · rw [tm] at ha
    rcases f.fresh ha with h1 | h1
    · rcases h.added h1 with ⟨j, h2⟩ | ⟨j, h2⟩
      · exact .inl ⟨j, by rw [tt]; exact List.mem_append_left _ h2⟩
      · by_cases hj : j = i
        · subst hj
          refine .inl ⟨j, ?_⟩
          rw [tt]
          exact List.mem_append_right _ (List.mem_map.2 ⟨_, f.adds h2 cls (h.coh j) k hk, rfl⟩)
        · exact .inr ⟨j, by rw [tj j hj]; exact h2⟩
    · exact .inr ⟨i, by rw [ti]; exact h1⟩
  · rw [tm] at ha ⊢
    rcases f.handled ha with h1 | h1
    · rcases h.handled h1 with h2 | ⟨j, h2⟩
      · exact .inl (f.mono h2)
      · by_cases hj : j = i
        · subst hj
          rcases f.asks h2 with h3 | h3
          · exact .inl h3
          · exact .inr ⟨j, by rw [ti]; exact h3⟩
        · exact .inr ⟨j, by rw [tj j hj]; exact h2⟩
    · exact .inr ⟨i, by rw [ti]; exact h1⟩
  · rw [tm]
    by_cases hi : j = i
    · subst hi
      rw [ti] at hj
      exact f.passed (h.past j) hj
    · rw [tj j hi] at hj
      exact f.mono (h.past j hj)
  · rw [tm]
    rw [tt] at hj
    rcases List.mem_append.1 hj with h1 | h1
    · exact f.mono (h.hook j h1)
    · obtain ⟨e, he, heq⟩ := List.mem_map.1 h1
      cases heq
      exact f.hook (h.past i) he

theorem exec_safe (E : Env T) (hs : E.hasSession = true) (cls : Nat → T) (hE : EAll E (fun e => e.cls = cls e.id)) (n : Nat) (k : Entry)
    (hk : Exc.classify E.H ⟨n, cls n⟩ = some k) (l : List Nat) : ∀ (s : Sys T), Safe E cls n k s → Safe E cls n k (exec E s l) := by
  induction l with
  | nil => exact fun s h => h
  | cons i l ih => exact fun s h => ih _ (step_safe E hs cls hE n k hk s h i)

/-! ## Which exceptions a thread tells about -/

/-- The exception an event is about. -/
def evId : Ev → Nat
  | .before n => n
  | .after n => n
  | .entry n _ => n
  | .caught n => n

theorem stepT_evs (E : Env T) (Q : Nat → Prop) (t : Thread T) (ht : TAll E.H (fun e => Q e.id) t) (m : Nat → Marks) :
    ∀ ev ∈ (stepT E t m).2.2, Q (evId ev) := by
  rcases t with ⟨ctl, stack, ign⟩
  have cl : ∀ e : Exc T, Q e.id → ∀ ev ∈ (match Exc.classify E.H e with | some k => [Ev.entry e.id k] | none => []), Q (evId ev) := by
    intro e he ev hev
    cases hc : Exc.classify E.H e <;> rw [hc] at hev
    · exact nomatch hev
    · rw [List.mem_singleton.1 hev]; exact he
  cases ctl with
  | run p => exact fun ev h => nomatch h
  | ret o =>
    cases stack with
    | nil => exact fun ev h => nomatch h
    | cons f st =>
      cases f with
      | caught ts ensure nc prev =>
        cases o with
        | none => exact fun ev h => nomatch h
        | some e =>
          simp only [stepT, stepRet]
          split
          · intro ev h; rw [List.mem_singleton.1 h]; exact ht.1 e rfl
          · exact fun ev h => nomatch h
      | _ => cases o <;> exact fun ev h => nomatch h
  | handle c e s =>
    cases s with
    | add => exact cl e ht.1
    | before => intro ev h; rw [List.mem_singleton.1 h]; exact ht.1
    | after => intro ev h; rw [List.mem_singleton.1 h]; exact ht.1
    | _ => exact fun ev h => nomatch h
  | record e s =>
    cases s with
    | add => exact cl e ht.1
    | _ => exact fun ev h => nomatch h

theorem exec_evs (E : Env T) (own : Nat → Nat) (hE : ∀ i, EAll E (fun e => own e.id = i)) (l : List Nat) :
    ∀ (s : Sys T), (∀ j, TAll E.H (fun e => own e.id = j) (s.threads j)) → (∀ x ∈ s.trace, own (evId x.2) = x.1) →
      ∀ x ∈ (exec E s l).trace, own (evId x.2) = x.1 := by
  induction l with
  | nil => exact fun s _ h => h
  | cons i l ih =>
    intro s hs h
    refine ih (step E s i) (fun k => ?_) ?_
    · simp only [step]
      by_cases hk : k = i
      · subst hk
        simp only [↓reduceIte]
        exact stepT_all E _ (hE k) _ (hs k) _
      · simp only [hk, ↓reduceIte]
        exact hs k
    · intro x hx
      simp only [step, List.mem_append, List.mem_map] at hx
      rcases hx with hx | ⟨ev, hev, rfl⟩
      · exact h x hx
      · exact stepT_evs E (fun n => own n = i) _ (hs i) _ ev hev

theorem exec_grows (E : Env T) (l : List Nat) : ∀ s : Sys T, ∃ tr, (exec E s l).trace = s.trace ++ tr := by
  induction l with
  | nil => exact fun s => ⟨[], (List.append_nil _).symm⟩
  | cons i l ih =>
    intro s
    obtain ⟨tr, h⟩ := ih (step E s i)
    exact ⟨(stepT E (s.threads i) s.marks).2.2.map (fun e => (i, e)) ++ tr, by
      simp only [exec, h]; simp only [step, List.append_assoc]⟩

/-- Events about an exception of thread `i` are all in thread `i`. -/
theorem countP_inThread (q : Ev → Bool) (i : Nat) (tr : List (Nat × Ev)) (h : ∀ x ∈ tr, q x.2 = true → x.1 = i) :
    tr.countP (fun x => q x.2) = (inThread i tr).countP q := by
  induction tr with
  | nil => rfl
  | cons x tr ih =>
    have ih := ih (fun y hy => h y (List.mem_cons_of_mem _ hy))
    simp only [inThread] at ih
    by_cases hx : x.1 = i
    · simp only [inThread, List.filterMap_cons, hx, ↓reduceIte, List.countP_cons, ih]
    · have hq : q x.2 = false := by
        cases hq : q x.2 with
        | false => rfl
        | true => exact (hx (h x List.mem_cons_self hq)).elim
      simp only [inThread, List.filterMap_cons, hx, ↓reduceIte, List.countP_cons, ih, hq, Bool.false_eq_true, Nat.add_zero]

end Slash.Thr
