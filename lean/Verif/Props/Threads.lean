import Verif.Lemmas.Threads
import Verif.Props.Exc
/-! Property theorems about threads that handle exceptions: C183. -/
namespace Slash.Thr
open Slash.Exc (Exc Ev Entry Marks Env Cfg Prog St Hier exE exH)
variable {T : Type}

/-- No exception object belongs to two threads: `own` says which thread has it; what the hooks raise belongs to the thread they run in. -/
structure Apart (E : Env T) (own : Nat → Nat) (p : Nat → Prog T) : Prop where
  progs : ∀ i, PAll E.H (fun e => own e.id = i) (p i)
  hooks : ∀ e e', E.beforeRaises e = some e' ∨ E.afterRaises e = some e' → own e'.id = own e.id

theorem Apart.all {E : Env T} {own : Nat → Nat} {p : Nat → Prog T} (h : Apart E own p) (i : Nat) : EAll E (fun e => own e.id = i) :=
  fun e e' he hr => (h.hooks e e' hr).trans he

theorem start_all (H : Hier T) (p : Nat → Prog T) (i : Nat) (P : Exc T → Prop) (hp : PAll H P (p i)) : TAll H P ((start p).threads i) :=
  ⟨hp, fun _ h => nomatch h⟩

/-- C183. If no exception object belongs to two threads, then whatever the threads do and however their steps interleave, a thread that has come to its
end has done exactly what it does alone: the same exception leaves it, the same is recorded, the hooks are called and the exceptions are caught in the
same order, its exceptions have the same marks; what other threads anticipate plays no role. -/
theorem C183_apart_partial (E : Env T) (own : Nat → Nat) (p : Nat → Prog T) (h : Apart E own p) (l : List Nat) (i : Nat) (o : Option (Exc T))
    (ho : Ended ((exec E (start p) l).threads i) o) :
    o = (Exc.eval E (p i) St.init).1 ∧ inThread i (exec E (start p) l).trace = (Exc.eval E (p i) St.init).2.trace ∧
    (∀ n, own n = i → (exec E (start p) l).marks n = (Exc.eval E (p i) St.init).2.marks n) ∧ ((exec E (start p) l).threads i).ignored = [] := by
  obtain ⟨h1, h2, h3⟩ := exec_sim E own h.all i l (start p) ⟨(start p).threads i, fun _ => {}, []⟩
    (fun j => start_all E.H p j _ (h.progs j)) rfl (fun _ _ => rfl) rfl
  obtain ⟨⟨k, hk⟩, -⟩ := reach_eval E (p i) [] [] (fun _ => {}) []
  have hd := solo_det E (l.count i) k ⟨(start p).threads i, fun _ => {}, []⟩ o (Exc.eval E (p i) St.init).1
    (by rw [← h1]; exact ho) (by
      have : (⟨(start p).threads i, fun _ => {}, []⟩ : Solo T) = ⟨⟨.run (p i), [], []⟩, fun _ => {}, []⟩ := rfl
      rw [this, hk]; exact ⟨rfl, rfl⟩)
  have hk' : solo E k ⟨(start p).threads i, fun _ => {}, []⟩ = ⟨⟨.ret (Exc.eval E (p i) St.init).1, [], []⟩,
      (Exc.eval E (p i) St.init).2.marks, (Exc.eval E (p i) St.init).2.trace⟩ := hk
  rw [hd, hk'] at h1 h2 h3
  refine ⟨?_, h3, h2, by rw [h1]⟩
  have := ho.1
  rw [h1] at this
  cases this
  rfl

/-- C183. No thread ever waits for another one: whatever exceptions they share, a thread comes to its end after a number of its own steps that depends only
on what it runs. -/
theorem C183_ends (E : Env T) (q : Prog T) :
    ∃ K, ∀ (p : Nat → Prog T) (i : Nat) (l : List Nat), p i = q → K ≤ l.count i → ∃ o, Ended ((exec E (start p) l).threads i) o := by
  refine ⟨wP q, fun p i l hq hl => wT_zero _ ?_⟩
  have h := exec_weight E i l (start p)
  have e : wT ((start p).threads i) = wP q := by simp [start, wT, wC, hq]
  omega

/-- C183. If no exception object belongs to two threads, then at every point of every execution each exception has been recorded at most once, and the hook
has been called for it at most once, in all threads together. -/
theorem C183_once_partial (E : Env T) (cls : Nat → T) (hE : E.Coh cls) (own : Nat → Nat) (p : Nat → Prog T) (hp : ∀ i, (p i).Coh E.H cls)
    (h : Apart E own p) (l : List Nat) (n : Nat) :
    (exec E (start p) l).trace.countP (fun x => match x.2 with | .entry m _ => m == n | _ => false) ≤ 1 ∧
    (exec E (start p) l).trace.countP (fun x => x.2 == .before n) ≤ 1 := by
  obtain ⟨K, hK⟩ := C183_ends E (p (own n))
  obtain ⟨o, ho⟩ := hK p (own n) (l ++ List.replicate K (own n)) rfl (by simp)
  obtain ⟨-, htr, -⟩ := C183_apart_partial E own p h _ (own n) o ho
  obtain ⟨tr, hg⟩ := exec_grows E (List.replicate K (own n)) (exec E (start p) l)
  rw [← exec_append] at hg
  have hev := exec_evs E own h.all (l ++ List.replicate K (own n)) (start p) (fun j => start_all E.H p j _ (h.progs j)) (fun _ h => nomatch h)
  have le : ∀ q : Ev → Bool, (∀ ev, q ev = true → evId ev = n) →
      (exec E (start p) l).trace.countP (fun x => q x.2) ≤ (Exc.eval E (p (own n)) St.init).2.trace.countP q := by
    intro q hq
    rw [← htr, ← countP_inThread q (own n) _ (fun x hx hqx => by rw [← hq x.2 hqx]; exact (hev x hx).symm), hg, List.countP_append]
    omega
  constructor
  · refine Nat.le_trans (le (fun ev => match ev with | .entry m _ => m == n | _ => false) ?_) (Exc.C08_recorded_at_most_once E cls hE _ (hp _) n)
    intro ev hq
    cases ev <;> simp [evId] at hq ⊢
    exact hq
  · refine Nat.le_trans (le (fun ev => ev == .before n) ?_) (Exc.C40_caught_hook_at_most_once E cls hE _ (hp _) n)
    intro ev hq
    rw [beq_iff_eq] at hq
    rw [hq]; rfl

/-- C183. Whatever exceptions the threads share and however their steps interleave: once all threads are at their ends, each exception for which the hook was
called, and each that is known as handled, has been recorded with its kind. -/
theorem C183_recorded (E : Env T) (hs : E.hasSession = true) (cls : Nat → T) (hE : EAll E (fun e => e.cls = cls e.id)) (p : Nat → Prog T)
    (hp : ∀ i, PAll E.H (fun e => e.cls = cls e.id) (p i)) (l : List Nat) (hend : ∀ i, ∃ o, Ended ((exec E (start p) l).threads i) o)
    (n : Nat) (k : Entry) (hk : Exc.classify E.H ⟨n, cls n⟩ = some k)
    (hn : (∃ j, (j, Ev.before n) ∈ (exec E (start p) l).trace) ∨ ((exec E (start p) l).marks n).handled = true) :
    ∃ j, (j, Ev.entry n k) ∈ (exec E (start p) l).trace := by
  have h0 : Safe E cls n k (start p) :=
    ⟨fun j => start_all E.H p j _ (hp j), fun h => by simp [start] at h, fun h => by simp [start] at h, fun _ h => h.elim, fun _ h => nomatch h⟩
  have h := exec_safe E hs cls hE n k hk l _ h0
  have ha : ((exec E (start p) l).marks n).added = true := by
    rcases hn with ⟨j, hj⟩ | hh
    · exact h.hook j hj
    · rcases h.handled hh with h1 | ⟨j, hj⟩
      · exact h1
      · obtain ⟨o, ho⟩ := hend j
        rw [ho.1] at hj
        exact hj.elim
  rcases h.added ha with h1 | ⟨j, hj⟩
  · exact h1
  · obtain ⟨o, ho⟩ := hend j
    rw [ho.1] at hj
    exact hj.elim

/-- C183. If one thread begins when another one is at its end, they may share exceptions: what happens is what happens when the second script runs after the
first one in the same thread. What the first one had recorded and handled is not recorded or handled again. -/
theorem C183_serial (E : Env T) (p : Nat → Prog T) (a b : Nat) (hab : b ≠ a) (k j : Nat) (o o' : Option (Exc T))
    (ha : Ended ((exec E (start p) (List.replicate k a)).threads a) o)
    (hb : Ended ((exec E (start p) (List.replicate k a ++ List.replicate j b)).threads b) o') :
    let r := Exc.eval E (p a) St.init
    let r' := Exc.eval E (p b) r.2
    let s := exec E (start p) (List.replicate k a ++ List.replicate j b)
    o = r.1 ∧ o' = r'.1 ∧ s.trace.map Prod.snd = r'.2.trace ∧ s.marks = r'.2.marks := by
  dsimp only
  rw [exec_append] at hb ⊢
  obtain ⟨a1, a2, a3, a4⟩ := exec_only E a k (start p) []
  obtain ⟨⟨ka, hka⟩, hia⟩ := reach_eval E (p a) [] [] (fun _ => {}) []
  have hda := solo_det E k ka ⟨(start p).threads a, fun _ => {}, []⟩ o (Exc.eval E (p a) St.init).1
    (by have := ha; rw [a2] at this; exact this)
    (by
      have : (⟨(start p).threads a, fun _ => {}, []⟩ : Solo T) = ⟨⟨.run (p a), [], []⟩, fun _ => {}, []⟩ := rfl
      rw [this, hka]; exact ⟨rfl, rfl⟩)
  have hka' : solo E ka ⟨(start p).threads a, fun _ => {}, []⟩ = ⟨⟨.ret (Exc.eval E (p a) St.init).1, [], []⟩,
      (Exc.eval E (p a) St.init).2.marks, (Exc.eval E (p a) St.init).2.trace⟩ := hka
  have hsol : solo E k ⟨(start p).threads a, (start p).marks, []⟩ = ⟨⟨.ret (Exc.eval E (p a) St.init).1, [], []⟩,
      (Exc.eval E (p a) St.init).2.marks, (Exc.eval E (p a) St.init).2.trace⟩ := hda.trans hka'
  have a4 := a4 rfl
  rw [hsol] at a2 a3 a4
  dsimp only at a2 a3 a4
  have tb : (exec E (start p) (List.replicate k a)).threads b = ⟨.run (p b), [], []⟩ := a1 b hab
  obtain ⟨-, b2, b3, b4⟩ := exec_only E b j (exec E (start p) (List.replicate k a)) (Exc.eval E (p a) St.init).2.trace
  have b4 := b4 a4
  rw [tb, a3] at b2 b3 b4
  have hr : (Exc.eval E (p a) St.init).2 = ⟨(Exc.eval E (p a) St.init).2.marks, [], (Exc.eval E (p a) St.init).2.trace⟩ := by
    have hia' : (Exc.eval E (p a) St.init).2.ignored = [] := hia
    rw [← hia']
  obtain ⟨⟨kb, hkb⟩, -⟩ := reach_eval E (p b) [] [] (Exc.eval E (p a) St.init).2.marks (Exc.eval E (p a) St.init).2.trace
  rw [← hr] at hkb
  have hdb := solo_det E j kb ⟨⟨.run (p b), [], []⟩, (Exc.eval E (p a) St.init).2.marks, (Exc.eval E (p a) St.init).2.trace⟩ o' _
    (by rw [b2] at hb; exact hb) (by rw [hkb]; exact ⟨rfl, rfl⟩)
  rw [hdb, hkb] at b2 b3 b4
  refine ⟨?_, ?_, b4, b3⟩
  · have := ha.1; rw [a2] at this; cases this; rfl
  · have := hb.1; rw [b2] at this; cases this; rfl

/-! ## Examples -/

/-- Two threads; the first one anticipates ValueError (class 6), the second one does not; each raises its own object. -/
def exTwo : Nat → Prog Nat
  | 0 => .allowing [6] (.handling {} (.raise ⟨0, 6⟩))
  | 1 => .handling { swallow := true } (.raise ⟨1, 6⟩)
  | _ => .done

example : Apart exE id exTwo := by
  refine ⟨fun i => ?_, fun e e' h => by simp [exE] at h⟩
  match i with
  | 0 => rfl
  | 1 => rfl
  | _ + 2 => trivial

example : exE.Coh (fun _ => 6) ∧ ∀ i, (exTwo i).Coh exE.H (fun _ => 6) := by
  refine ⟨⟨fun e e' h => by simp [exE] at h, fun e e' h => by simp [exE] at h⟩, fun i => ?_⟩
  match i with
  | 0 => rfl
  | 1 => rfl
  | _ + 2 => trivial

/-- the second thread raises while the first one anticipates: it is recorded, the other one is not -/
example : let s := exec exE (start exTwo) [0, 0, 1, 1, 0, 1, 1, 1, 1, 1, 0, 1, 1, 0, 1, 1, 1, 0, 1]
    Ended (s.threads 0) none ∧ Ended (s.threads 1) none ∧ s.trace = [(1, .entry 1 .error), (1, .before 1), (0, .caught 0), (1, .after 1)] :=
  ⟨⟨rfl, rfl⟩, ⟨rfl, rfl⟩, rfl⟩

/-- Two threads that handle the same object (object 0, a ValueError), for example one that was raised in a worker thread and is raised again by the one
that waits for it. -/
def exSame : Nat → Prog Nat
  | 0 => .handling { swallow := true } (.raise ⟨0, 6⟩)
  | 1 => .handling { swallow := true } (.raise ⟨0, 6⟩)
  | _ => .done

/-- one after the other: recorded once, and the hooks are called once -/
example : let s := exec exE (start exSame) (List.replicate 11 0 ++ List.replicate 11 1)
    Ended (s.threads 0) none ∧ Ended (s.threads 1) none ∧ s.trace = [(0, .entry 0 .error), (0, .before 0), (0, .after 0)] :=
  ⟨⟨rfl, rfl⟩, ⟨rfl, rfl⟩, rfl⟩

/-- the object is recorded and no thread is in the middle -/
example : (Exc.classify exE.H ⟨0, 6⟩ = some .error) ∧ EAll exE (fun e => e.cls = 6) ∧ (∀ i, PAll exE.H (fun e => e.cls = 6) (exSame i)) ∧
    ∃ j, (j, Ev.before 0) ∈ (exec exE (start exSame) (List.replicate 11 0 ++ List.replicate 11 1)).trace := by
  refine ⟨by decide, fun e e' _ h => by simp [exE] at h, fun i => ?_, 0, by decide⟩
  match i with
  | 0 => rfl
  | 1 => rfl
  | _ + 2 => trivial

/-- C183, violated. When two threads handle the same exception object at the same time, both may find that it is not yet handled and not yet added to a
result: it is recorded twice, and the hooks are called twice. -/
theorem C183_race_violated :
    ∃ l : List Nat, let s := exec exE (start exSame) l
      Ended (s.threads 0) none ∧ Ended (s.threads 1) none ∧ (s.trace.map Prod.snd).count (.entry 0 .error) = 2 ∧
      (s.trace.map Prod.snd).count (.before 0) = 2 ∧ (s.trace.map Prod.snd).count (.after 0) = 2 :=
  ⟨[0, 0, 0, 0, 1, 1, 1, 1, 0, 1, 0, 1, 0, 1, 0, 1, 0, 1, 0, 1, 0, 1], ⟨rfl, rfl⟩, ⟨rfl, rfl⟩, by decide, by decide, by decide⟩

/-- C183, violated. It may also be recorded once while the hooks are called twice, and the hooks in one thread may be called before the other thread has
recorded the exception. -/
theorem C183_hooks_violated :
    ∃ l : List Nat, let s := exec exE (start exSame) l
      Ended (s.threads 0) none ∧ Ended (s.threads 1) none ∧
      s.trace = [(1, .before 0), (1, .after 0), (0, .entry 0 .error), (0, .before 0), (0, .after 0)] :=
  ⟨[0, 0, 0, 0, 1, 1, 1, 1, 0, 0, 0, 1, 1, 1, 1, 1, 0, 0, 0, 0], ⟨rfl, rfl⟩, ⟨rfl, rfl⟩, rfl⟩

/-- C183, violated. Handling may end in one thread although the exception is not recorded yet: the second thread finds the mark and goes on while the first
one is still about to record it. -/
theorem C183_early_violated :
    ∃ l : List Nat, let s := exec exE (start exSame) l
      Ended (s.threads 1) none ∧ (s.marks 0).handled = true ∧ s.trace = [] :=
  ⟨[0, 0, 0, 0, 0, 1, 1, 1, 1, 1], ⟨rfl, rfl⟩, rfl, rfl⟩

end Slash.Thr
