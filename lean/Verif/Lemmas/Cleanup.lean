import Verif.Model.Cleanup
/-! Helper lemmas and the state invariant of the cleanup manager model. -/
namespace Slash.Cleanup

/-- A cleanup is disposed of when it is called, passed over, or dropped with its scope. -/
def isDisp : Ev → Option (Nat × Nat)
  | .ran r u | .skipped r u | .dropped r u => some (r, u)
  | _ => none

def disposed (l : List Ev) : List Nat := l.filterMap (fun e => (isDisp e).map (·.1))

/-- Serial numbers in the `added` events -/
def addedReg : Ev → Option Nat
  | .added r _ _ _ => some r
  | _ => none

/-- Events that have no bearing on the heap invariant -/
def neutral : Ev → Bool
  | .recorded .. | .ended .. | .opened .. | .closed .. => true
  | _ => false

def LifoAt (l : List Ev) (r u : Nat) : Prop :=
  ∀ r', r < r' → Ev.placed r' u ∈ l → Ev.ran r' u ∈ l ∨ Ev.skipped r' u ∈ l

def Lifo (l : List Ev) : Prop :=
  ∀ l1 l2 r u, l = l1 ++ Ev.ran r u :: l2 → LifoAt l1 r u

/-- The rule that decides whether a cleanup is called. -/
def Rule (f i c s : Bool) : Prop := (i = true → c = true) ∧ ((f = true ∨ i = true) → s = false)

structure Inv (act : Option (Nat × Bool × Bool)) (st : St) : Prop where
  nodup : st.stack.Nodup
  lt : ∀ u ∈ st.stack, u < st.nextUid
  ltLog : ∀ r u, Ev.placed r u ∈ st.log → u < st.nextUid
  ltClosing : ∀ u f i, Ev.closing u f i ∈ st.log → u < st.nextUid
  closedEmpty : ∀ u, u ∉ st.stack → st.cleanups u = []
  byName : ∀ n, (st.byName n).getD [] = st.stack.filter (fun u => st.scopeName u = n)
  conserve : (st.pending.map Reg.reg ++ st.stack.flatMap (fun u => (st.cleanups u).map Reg.reg)
      ++ disposed st.log).Perm (List.range st.nextReg)
  serial : st.log.filterMap addedReg = List.range st.nextReg
  dropClosed : ∀ r u, Ev.dropped r u ∈ st.log → u ∉ st.stack
  pend : st.stack ≠ [] → st.pending = []
  dec : ∀ u, (st.cleanups u).Pairwise (fun a b => b.reg < a.reg)
  pendInc : st.pending.Pairwise (fun a b => a.reg < b.reg)
  placed : ∀ u c, c ∈ st.cleanups u → Ev.placed c.reg u ∈ st.log
  outstanding : ∀ r u, Ev.placed r u ∈ st.log →
      r ∈ (st.cleanups u).map Reg.reg ∨ ∃ e ∈ st.log, isDisp e = some (r, u)
  dispPlaced : ∀ e ∈ st.log, ∀ r u, isDisp e = some (r, u) → Ev.placed r u ∈ st.log
  info : ∀ c, (c ∈ st.pending ∨ ∃ u, c ∈ st.cleanups u) →
      Ev.added c.reg c.cb.critical c.cb.successOnly c.result ∈ st.log
  addedLt : ∀ r c s x, Ev.added r c s x ∈ st.log → r < st.nextReg
  addedUniq : ∀ r c s x c' s' x', Ev.added r c s x ∈ st.log → Ev.added r c' s' x' ∈ st.log →
      c = c' ∧ s = s' ∧ x = x'
  lifo : Lifo st.log
  actOnly : ∀ u ∈ st.stack, ∀ f i, Ev.closing u f i ∈ st.log → act = some (u, f, i)
  actIn : ∀ u f i, act = some (u, f, i) → Ev.closing u f i ∈ st.log ∧ u ∈ st.stack
  closingUniq : ∀ u f i f' i', Ev.closing u f i ∈ st.log → Ev.closing u f' i' ∈ st.log → f = f' ∧ i = i'
  ranRule : ∀ r u, Ev.ran r u ∈ st.log → ∃ f i c s x, Ev.closing u f i ∈ st.log ∧
      Ev.added r c s x ∈ st.log ∧ Rule f i c s
  skipRule : ∀ r u, Ev.skipped r u ∈ st.log → ∃ f i c s x, Ev.closing u f i ∈ st.log ∧
      Ev.added r c s x ∈ st.log ∧ ¬ Rule f i c s

theorem disposed_append (a b : List Ev) : disposed (a ++ b) = disposed a ++ disposed b := by
  simp [disposed]

theorem mem_disposed {l : List Ev} {r : Nat} : r ∈ disposed l ↔ ∃ e ∈ l, ∃ u, isDisp e = some (r, u) := by
  simp only [disposed, List.mem_filterMap, Option.map_eq_some_iff]
  constructor
  · rintro ⟨e, he, ⟨r', u⟩, h1, h2⟩; exact ⟨e, he, u, by rw [h1]; simp at h2; rw [h2]⟩
  · rintro ⟨e, he, u, h⟩; exact ⟨e, he, (r, u), h, rfl⟩

theorem lifo_append {l : List Ev} {e : Ev} (h : Lifo l) (he : ∀ r u, e = .ran r u → LifoAt l r u) :
    Lifo (l ++ [e]) := by
  intro l1 l2 r u heq
  rcases List.eq_nil_or_concat l2 with rfl | ⟨l2', x, rfl⟩
  · have := List.append_inj' heq rfl
    obtain ⟨h1, h2⟩ := this
    simp at h2
    subst h1
    exact he r u h2
  · have h3 : l ++ [e] = (l1 ++ Ev.ran r u :: l2') ++ [x] := by simpa using heq
    have := (List.append_inj' h3 rfl).1
    exact h l1 l2' r u this

theorem lifo_append_list {l m : List Ev} (h : Lifo l) (hm : ∀ e ∈ m, ∀ r u, e ≠ .ran r u) :
    Lifo (l ++ m) := by
  induction m generalizing l with
  | nil => simpa using h
  | cons e m ih =>
    have : l ++ e :: m = (l ++ [e]) ++ m := by simp
    rw [this]
    apply ih
    · exact lifo_append h (fun r u he => absurd he (hm e (by simp) r u))
    · exact fun e' he' => hm e' (by simp [he'])

/-- same heap -/
structure Same (st st' : St) : Prop where
  stack : st'.stack = st.stack
  byName : st'.byName = st.byName
  scopeName : st'.scopeName = st.scopeName
  cleanups : st'.cleanups = st.cleanups
  pending : st'.pending = st.pending
  nextUid : st'.nextUid = st.nextUid
  nextReg : st'.nextReg = st.nextReg

theorem mem_neutral {l : List Ev} {m : List Ev} (hm : ∀ e ∈ m, neutral e = true) {x : Ev}
    (hx : neutral x = false) : x ∈ l ++ m ↔ x ∈ l := by
  simp only [List.mem_append, or_iff_left_iff_imp]
  intro h
  have := hm x h
  rw [hx] at this; cases this

theorem inv_neutral {act} {st st' : St} (h : Inv act st) (hs : Same st st') (m : List Ev)
    (hl : st'.log = st.log ++ m) (hm : ∀ e ∈ m, neutral e = true) : Inv act st' := by
  obtain ⟨s1, s2, s3, s4, s5, s6, s7⟩ := hs
  have hd : disposed m = [] := by
    simp only [disposed, List.filterMap_eq_nil_iff]
    intro e he
    have := hm e he
    cases e <;> simp_all [neutral, isDisp]
  have hdisp : ∀ e r u, isDisp e = some (r, u) → (e ∈ st'.log ↔ e ∈ st.log) := by
    intro e r u he
    rw [hl]
    apply mem_neutral hm
    cases e <;> simp_all [neutral, isDisp]
  have hpl : ∀ r u, Ev.placed r u ∈ st'.log ↔ Ev.placed r u ∈ st.log := by
    intro r u; rw [hl]; exact mem_neutral hm rfl
  have hcl : ∀ r f i, Ev.closing r f i ∈ st'.log ↔ Ev.closing r f i ∈ st.log := by
    intro r f i; rw [hl]; exact mem_neutral hm rfl
  have hran : ∀ r u, Ev.ran r u ∈ st'.log ↔ Ev.ran r u ∈ st.log := by
    intro r u; rw [hl]; exact mem_neutral hm rfl
  have hsk : ∀ r u, Ev.skipped r u ∈ st'.log ↔ Ev.skipped r u ∈ st.log := by
    intro r u; rw [hl]; exact mem_neutral hm rfl
  have had : ∀ r c s x, Ev.added r c s x ∈ st'.log ↔ Ev.added r c s x ∈ st.log := by
    intro r c s x; rw [hl]; exact mem_neutral hm rfl
  constructor
  · rw [s1]; exact h.nodup
  · rw [s1, s6]; exact h.lt
  · intro r u; rw [hpl, s6]; exact h.ltLog r u
  · intro u f i; rw [hcl, s6]; exact h.ltClosing u f i
  · rw [s1, s4]; exact h.closedEmpty
  · rw [s1, s2, s3]; exact h.byName
  · rw [hl, disposed_append, hd, List.append_nil, s1, s4, s5, s7]; exact h.conserve
  · have hz : m.filterMap addedReg = [] := by
      simp only [List.filterMap_eq_nil_iff]
      intro e he
      have := hm e he
      cases e <;> simp_all [neutral, addedReg]
    rw [hl, List.filterMap_append, hz, List.append_nil, s7]; exact h.serial
  · intro r u; rw [hl, mem_neutral hm rfl, s1]; exact h.dropClosed r u
  · rw [s1, s5]; exact h.pend
  · rw [s4]; exact h.dec
  · rw [s5]; exact h.pendInc
  · intro u c; rw [s4, hpl]; exact h.placed u c
  · intro r u; rw [s4, hpl]
    intro hp
    rcases h.outstanding r u hp with h1 | ⟨e, he, h2⟩
    · exact .inl h1
    · exact .inr ⟨e, (hdisp e r u h2).2 he, h2⟩
  · intro e he r u hd'
    rw [hpl]
    exact h.dispPlaced e ((hdisp e r u hd').1 he) r u hd'
  · intro c hc
    rw [s4, s5] at hc
    rw [had]; exact h.info c hc
  · intro r c s x; rw [had, s7]; exact h.addedLt r c s x
  · intro r c s x c' s' x'; rw [had, had]; exact h.addedUniq r c s x c' s' x'
  · rw [hl]
    apply lifo_append_list h.lifo
    intro e he r u heq
    have := hm e he
    rw [heq] at this; cases this
  · intro u hu f i; rw [hcl]; rw [s1] at hu; exact h.actOnly u hu f i
  · intro u f i hact; rw [hcl, s1]; exact h.actIn u f i hact
  · intro u f i f' i'; rw [hcl, hcl]; exact h.closingUniq u f i f' i'
  · intro r u; rw [hran]; intro hr
    obtain ⟨f, i, c, s, x, h1, h2, h3⟩ := h.ranRule r u hr
    exact ⟨f, i, c, s, x, (hcl ..).2 h1, (had ..).2 h2, h3⟩
  · intro r u; rw [hsk]; intro hr
    obtain ⟨f, i, c, s, x, h1, h2, h3⟩ := h.skipRule r u hr
    exact ⟨f, i, c, s, x, (hcl ..).2 h1, (had ..).2 h2, h3⟩

theorem same_record (st : St) (r : RKey) (k : Kind) : Same st (st.record r k) := by
  unfold St.record; simp only; split <;> exact ⟨rfl, rfl, rfl, rfl, rfl, rfl, rfl⟩

theorem log_record (st : St) (r : RKey) (k : Kind) : (st.record r k).log = st.log := by
  unfold St.record; simp only; split <;> rfl

theorem inv_record {act} {st : St} (h : Inv act st) (r : RKey) (k : Kind) : Inv act (st.record r k) :=
  inv_neutral h (same_record st r k) [] (by simp [log_record]) (by simp)

theorem inv_emit {act} {st : St} (h : Inv act st) (e : Ev) (he : neutral e = true) :
    Inv act (st.emit e) :=
  inv_neutral h ⟨rfl, rfl, rfl, rfl, rfl, rfl, rfl⟩ [e] rfl (by simpa using he)

theorem inv_reg_lt {act} {st : St} (h : Inv act st) {c : Reg}
    (hc : c ∈ st.pending ∨ ∃ u, c ∈ st.cleanups u) : c.reg < st.nextReg :=
  h.addedLt _ _ _ _ (h.info c hc)

theorem inv_disposed_lt {act} {st : St} (h : Inv act st) {r : Nat} (hr : r ∈ disposed st.log) :
    r < st.nextReg := by
  have := h.conserve.mem_iff (a := r)
  simp only [List.mem_append, hr, or_true, List.mem_range, true_iff] at this
  exact this

theorem inv_placed_lt {act} {st : St} (h : Inv act st) {r u : Nat} (hr : Ev.placed r u ∈ st.log) :
    r < st.nextReg := by
  rcases h.outstanding r u hr with h1 | ⟨e, he, h2⟩
  · obtain ⟨c, hc, rfl⟩ := List.mem_map.1 h1
    exact inv_reg_lt h (.inr ⟨u, hc⟩)
  · exact inv_disposed_lt h (mem_disposed.2 ⟨e, he, u, h2⟩)

theorem flatMap_update_cons (f g : Nat → List Nat) (u x : Nat) (l : List Nat) (hn : l.Nodup)
    (hu : u ∈ l) (hgu : g u = x :: f u) (hg : ∀ v, v ≠ u → g v = f v) :
    (l.flatMap g).Perm (x :: l.flatMap f) := by
  induction l with
  | nil => cases hu
  | cons a l ih =>
    rw [List.nodup_cons] at hn
    simp only [List.flatMap_cons]
    by_cases hau : a = u
    · subst hau
      rw [hgu]
      have : l.flatMap g = l.flatMap f := by
        clear ih
        have hn1 := hn.1
        induction l with
        | nil => rfl
        | cons b l ih2 =>
          simp only [List.mem_cons, not_or] at hn1
          simp only [List.flatMap_cons]
          rw [hg b (fun hb => hn1.1 hb.symm), ih2 ⟨hn1.2, (List.nodup_cons.1 hn.2).2⟩ (by simp) hn1.2]
      rw [this]; simp
    · rw [hg a hau]
      have hu' : u ∈ l := by
        rcases List.mem_cons.1 hu with h | h
        · exact absurd h.symm hau
        · exact h
      have := ih hn.2 hu'
      exact (List.Perm.append_left (f a) this).trans List.perm_middle

theorem flatMap_congr_mem (f g : Nat → List Nat) (l : List Nat) (h : ∀ v ∈ l, g v = f v) :
    l.flatMap g = l.flatMap f := by
  induction l with
  | nil => rfl
  | cons a l ih => simp only [List.flatMap_cons]; rw [h a (by simp), ih (fun v hv => h v (by simp [hv]))]

theorem selectScope_ok {act} {st : St} (h : Inv act st) {sc : ScopeArg} {uid : Option Nat}
    (hs : selectScope sc st = .ok uid) :
    (uid = none → st.stack = []) ∧ (∀ u, uid = some u → u ∈ st.stack) := by
  unfold selectScope at hs
  simp only at hs
  split at hs
  · split at hs
    · cases hs
    · cases hs
      constructor
      · intro h1; simpa using h1
      · intro u h1; exact List.mem_of_mem_head? h1
  · rename_i n _
    split at hs
    · cases hs
    · cases hs
    · rename_i u l hb
      cases hs
      have := h.byName n
      rw [hb] at this
      simp only [Option.getD_some] at this
      constructor
      · intro h1; cases h1
      · intro u' h1
        cases h1
        have hm : u ∈ st.stack.filter (fun u => st.scopeName u = n) := by rw [← this]; simp
        exact (List.mem_filter.1 hm).1

theorem inv_place_none {act} {st : St} (h : Inv act st) (cb : Cb) (hst : st.stack = []) :
    Inv act (place cb none st) := by
  have hl : (place cb none st).log =
      st.log ++ [.added st.nextReg cb.critical cb.successOnly st.curResult] := rfl
  have hc : (place cb none st).cleanups = st.cleanups := rfl
  have hp : (place cb none st).pending = st.pending ++ [⟨st.nextReg, st.curResult, cb⟩] := rfl
  have hempty : ∀ u, st.cleanups u = [] := fun u => h.closedEmpty u (by simp [hst])
  have hn : (place cb none st).nextReg = st.nextReg + 1 := rfl
  have hfresh : ∀ c s x, Ev.added st.nextReg c s x ∉ st.log := fun c s x hm =>
    Nat.lt_irrefl _ (h.addedLt _ _ _ _ hm)
  generalize hst' : place cb none st = st' at *
  have e1 : st'.stack = st.stack := by rw [← hst']; rfl
  have e2 : st'.byName = st.byName := by rw [← hst']; rfl
  have e3 : st'.scopeName = st.scopeName := by rw [← hst']; rfl
  have e4 : st'.nextUid = st.nextUid := by rw [← hst']; rfl
  constructor
  · rw [e1]; exact h.nodup
  · rw [e1, e4]; exact h.lt
  · intro r u; rw [hl, e4]; simpa using h.ltLog r u
  · intro u f i; rw [hl, e4]; simpa using h.ltClosing u f i
  · rw [hc]; intro u _; exact hempty u
  · rw [e1, e2, e3]; exact h.byName
  · rw [hl, hp, hn, e1, hst, List.range_succ, disposed_append]
    have := h.conserve
    rw [hst] at this
    simp only [List.flatMap_nil, List.append_nil, List.map_append, List.map_cons, List.map_nil] at this ⊢
    simp only [disposed, List.filterMap_cons, List.filterMap_nil, isDisp, Option.map_none, List.append_nil] at this ⊢
    refine List.Perm.trans ?_ (List.Perm.append_right _ this)
    rw [List.append_assoc, List.append_assoc]
    exact List.Perm.append_left _ (List.perm_append_comm)
  · rw [hl, List.filterMap_append, h.serial, hn, List.range_succ]; rfl
  · intro r u _; rw [e1, hst]; simp
  · intro h1; rw [e1, hst] at h1; exact absurd rfl h1
  · rw [hc]; exact h.dec
  · rw [hp]
    rw [List.pairwise_append]
    refine ⟨h.pendInc, by simp, ?_⟩
    intro a ha b hb
    simp only [List.mem_singleton] at hb
    subst hb
    exact inv_reg_lt h (.inl ha)
  · intro u c hcu; rw [hc, hempty] at hcu; cases hcu
  · intro r u hpl
    rw [hl] at hpl
    simp only [List.mem_append, List.mem_singleton, reduceCtorEq, or_false] at hpl
    rcases h.outstanding r u hpl with h1 | ⟨e, he, h2⟩
    · exact .inl (by rw [hc]; exact h1)
    · exact .inr ⟨e, by rw [hl]; simp [he], h2⟩
  · intro e he r u hd
    rw [hl] at he ⊢
    rcases List.mem_append.1 he with h1 | h1
    · exact List.mem_append_left _ (h.dispPlaced e h1 r u hd)
    · simp only [List.mem_singleton] at h1; subst h1; cases hd
  · intro c hcc
    rw [hp, hc] at hcc
    rw [hl]
    simp only [List.mem_append, List.mem_singleton] at hcc
    rcases hcc with (h1 | h1) | h1
    · exact List.mem_append_left _ (h.info c (.inl h1))
    · subst h1; simp
    · exact List.mem_append_left _ (h.info c (.inr h1))
  · intro r c s x hm
    rw [hl] at hm; rw [hn]
    simp only [List.mem_append, List.mem_singleton, Ev.added.injEq] at hm
    rcases hm with h1 | h1
    · have := h.addedLt _ _ _ _ h1; omega
    · omega
  · intro r c s x c' s' x' hm hm'
    rw [hl] at hm hm'
    simp only [List.mem_append, List.mem_singleton, Ev.added.injEq] at hm hm'
    rcases hm with h1 | ⟨rfl, rfl, rfl, rfl⟩ <;> rcases hm' with h2 | ⟨h2, rfl, rfl, rfl⟩
    · exact h.addedUniq _ _ _ _ _ _ _ h1 h2
    · subst h2; exact absurd h1 (hfresh _ _ _)
    · exact absurd h2 (hfresh _ _ _)
    · exact ⟨rfl, rfl, rfl⟩
  · rw [hl]; exact lifo_append h.lifo (by intro r u he; cases he)
  · intro u hu; rw [e1, hst] at hu; cases hu
  · intro u f i ha; rw [hl, e1]
    have := h.actIn u f i ha
    exact ⟨List.mem_append_left _ this.1, this.2⟩
  · intro u f i f' i' h1 h2
    rw [hl] at h1 h2
    simp only [List.mem_append, List.mem_singleton, reduceCtorEq, or_false] at h1 h2
    exact h.closingUniq _ _ _ _ _ h1 h2
  · intro r u hr
    rw [hl] at hr ⊢
    simp only [List.mem_append, List.mem_singleton, reduceCtorEq, or_false] at hr
    obtain ⟨f, i, c, s, x, h1, h2, h3⟩ := h.ranRule r u hr
    exact ⟨f, i, c, s, x, List.mem_append_left _ h1, List.mem_append_left _ h2, h3⟩
  · intro r u hr
    rw [hl] at hr ⊢
    simp only [List.mem_append, List.mem_singleton, reduceCtorEq, or_false] at hr
    obtain ⟨f, i, c, s, x, h1, h2, h3⟩ := h.skipRule r u hr
    exact ⟨f, i, c, s, x, List.mem_append_left _ h1, List.mem_append_left _ h2, h3⟩

theorem inv_place_some {act} {st : St} (h : Inv act st) (cb : Cb) {u : Nat} (hu : u ∈ st.stack) :
    Inv act (place cb (some u) st) := by
  have hl : (place cb (some u) st).log =
      st.log ++ [.added st.nextReg cb.critical cb.successOnly st.curResult] ++ [.placed st.nextReg u] := rfl
  have hcu : (place cb (some u) st).cleanups u = ⟨st.nextReg, st.curResult, cb⟩ :: st.cleanups u := by
    simp [place, St.emit]
  have hcv : ∀ v, v ≠ u → (place cb (some u) st).cleanups v = st.cleanups v := by
    intro v hv; simp [place, St.emit, hv]
  have hp : (place cb (some u) st).pending = st.pending := rfl
  have hn : (place cb (some u) st).nextReg = st.nextReg + 1 := rfl
  have hfresh : ∀ c s x, Ev.added st.nextReg c s x ∉ st.log := fun c s x hm =>
    Nat.lt_irrefl _ (h.addedLt _ _ _ _ hm)
  generalize hst' : place cb (some u) st = st' at *
  have e1 : st'.stack = st.stack := by rw [← hst']; rfl
  have e2 : st'.byName = st.byName := by rw [← hst']; rfl
  have e3 : st'.scopeName = st.scopeName := by rw [← hst']; rfl
  have e4 : st'.nextUid = st.nextUid := by rw [← hst']; rfl
  have hsub : ∀ x ∈ st.log, x ∈ st'.log := by intro x hx; rw [hl]; simp [hx]
  constructor
  · rw [e1]; exact h.nodup
  · rw [e1, e4]; exact h.lt
  · intro r v hm; rw [hl] at hm; rw [e4]
    simp only [List.mem_append, List.mem_singleton, reduceCtorEq, or_false, Ev.placed.injEq] at hm
    rcases hm with h1 | ⟨_, rfl⟩
    · exact h.ltLog r v h1
    · exact h.lt _ hu
  · intro v f i hm; rw [hl] at hm; rw [e4]
    simp only [List.mem_append, List.mem_singleton, reduceCtorEq, or_false] at hm
    exact h.ltClosing v f i hm
  · intro v hv
    rw [e1] at hv
    have : v ≠ u := fun hvu => hv (hvu ▸ hu)
    rw [hcv v this]; exact h.closedEmpty v hv
  · rw [e1, e2, e3]; exact h.byName
  · rw [hl, hp, hn, e1, List.range_succ, disposed_append, disposed_append]
    have hd1 : disposed [Ev.added st.nextReg cb.critical cb.successOnly st.curResult] = [] := rfl
    have hd2 : disposed [Ev.placed st.nextReg u] = [] := rfl
    rw [hd1, hd2, List.append_nil, List.append_nil]
    have hf := flatMap_update_cons (fun v => (st.cleanups v).map Reg.reg)
      (fun v => (st'.cleanups v).map Reg.reg) u st.nextReg st.stack h.nodup hu
      (by simp only [hcu]; rfl) (by intro v hv; simp only [hcv v hv])
    have := h.conserve
    refine List.Perm.trans ?_ ((List.Perm.cons st.nextReg this).trans
      (List.perm_append_singleton _ _).symm)
    refine (List.Perm.append_right _ (List.Perm.append_left _ hf)).trans ?_
    rw [List.append_assoc, List.append_assoc]
    exact List.perm_middle
  · rw [hl, List.filterMap_append, List.filterMap_append, h.serial, hn, List.range_succ]; simp [addedReg]
  · intro r v hm; rw [e1]; rw [hl] at hm; exact h.dropClosed r v (by simpa using hm)
  · rw [e1, hp]; exact h.pend
  · intro v
    by_cases hv : v = u
    · subst hv
      rw [hcu, List.pairwise_cons]
      refine ⟨?_, h.dec v⟩
      intro a ha
      exact inv_reg_lt h (.inr ⟨v, ha⟩)
    · rw [hcv v hv]; exact h.dec v
  · rw [hp]; exact h.pendInc
  · intro v c hc
    by_cases hv : v = u
    · subst hv
      rw [hcu] at hc
      rcases List.mem_cons.1 hc with h1 | h1
      · subst h1; rw [hl]; simp
      · exact hsub _ (h.placed v c h1)
    · rw [hcv v hv] at hc; exact hsub _ (h.placed v c hc)
  · intro r v hpl
    rw [hl] at hpl
    simp only [List.mem_append, List.mem_singleton, reduceCtorEq, or_false, Ev.placed.injEq] at hpl
    rcases hpl with hpl | ⟨rfl, rfl⟩
    · rcases h.outstanding r v hpl with h1 | ⟨e, he, h2⟩
      · left
        by_cases hv : v = u
        · subst hv; rw [hcu]; simp only [List.map_cons, List.mem_cons]; exact .inr h1
        · rw [hcv v hv]; exact h1
      · exact .inr ⟨e, hsub _ he, h2⟩
    · left; rw [hcu]; simp
  · intro e he r v hd
    rw [hl] at he
    simp only [List.mem_append, List.mem_singleton] at he
    rcases he with (h1 | h1) | h1
    · exact hsub _ (h.dispPlaced e h1 r v hd)
    · subst h1; cases hd
    · subst h1; cases hd
  · intro c hcc
    rw [hp] at hcc
    rcases hcc with h1 | ⟨v, h1⟩
    · exact hsub _ (h.info c (.inl h1))
    · by_cases hv : v = u
      · subst hv
        rw [hcu] at h1
        rcases List.mem_cons.1 h1 with h1 | h1
        · subst h1; rw [hl]; simp
        · exact hsub _ (h.info c (.inr ⟨v, h1⟩))
      · rw [hcv v hv] at h1
        exact hsub _ (h.info c (.inr ⟨v, h1⟩))
  · intro r c s x hm
    rw [hl] at hm; rw [hn]
    simp only [List.mem_append, List.mem_singleton, Ev.added.injEq, reduceCtorEq, or_false] at hm
    rcases hm with h1 | h1
    · have := h.addedLt _ _ _ _ h1; omega
    · omega
  · intro r c s x c' s' x' hm hm'
    rw [hl] at hm hm'
    simp only [List.mem_append, List.mem_singleton, Ev.added.injEq, reduceCtorEq, or_false] at hm hm'
    rcases hm with h1 | ⟨rfl, rfl, rfl, rfl⟩ <;> rcases hm' with h2 | ⟨h2, rfl, rfl, rfl⟩
    · exact h.addedUniq _ _ _ _ _ _ _ h1 h2
    · subst h2; exact absurd h1 (hfresh _ _ _)
    · exact absurd h2 (hfresh _ _ _)
    · exact ⟨rfl, rfl, rfl⟩
  · rw [hl]
    exact lifo_append (lifo_append h.lifo (by intro r u he; cases he)) (by intro r u he; cases he)
  · intro v hv f i hm
    rw [e1] at hv
    rw [hl] at hm
    simp only [List.mem_append, List.mem_singleton, reduceCtorEq, or_false] at hm
    exact h.actOnly v hv f i hm
  · intro v f i ha; rw [e1]
    have := h.actIn v f i ha
    exact ⟨hsub _ this.1, this.2⟩
  · intro v f i f' i' h1 h2
    rw [hl] at h1 h2
    simp only [List.mem_append, List.mem_singleton, reduceCtorEq, or_false] at h1 h2
    exact h.closingUniq _ _ _ _ _ h1 h2
  · intro r v hr
    rw [hl] at hr
    simp only [List.mem_append, List.mem_singleton, reduceCtorEq, or_false] at hr
    obtain ⟨f, i, c, s, x, h1, h2, h3⟩ := h.ranRule r v hr
    exact ⟨f, i, c, s, x, hsub _ h1, hsub _ h2, h3⟩
  · intro r v hr
    rw [hl] at hr
    simp only [List.mem_append, List.mem_singleton, reduceCtorEq, or_false] at hr
    obtain ⟨f, i, c, s, x, h1, h2, h3⟩ := h.skipRule r v hr
    exact ⟨f, i, c, s, x, hsub _ h1, hsub _ h2, h3⟩

theorem inv_addCleanup {act} {st : St} (h : Inv act st) (sc : ScopeArg) (cb : Cb) :
    Inv act (addCleanup sc cb st).2 := by
  unfold addCleanup
  split
  · exact h
  · split
    · exact h
    · rename_i uid hs
      have := selectScope_ok h hs
      cases uid with
      | none => exact inv_place_none h cb (this.1 rfl)
      | some u => exact inv_place_some h cb (this.2 u rfl)

theorem inv_runActs {act} (acts : List Act) {st : St} (h : Inv act st) :
    Inv act (runActs acts st).2 := by
  induction acts generalizing st with
  | nil => exact h
  | cons a rest ih =>
    cases a with
    | add sc cb =>
      have h1 := inv_addCleanup h sc cb
      simp only [runActs]
      split <;> rename_i heq <;> rw [heq] at h1
      · exact h1
      · exact ih h1
    | note k =>
      simp only [runActs]
      split
      · exact ih (inv_record h _ _)
      · exact h

theorem inv_callCleanup {act} (c : Reg) {st : St} (h : Inv act st) :
    Inv act (callCleanup c st).2 := by
  have h1 := inv_runActs c.cb.acts h
  unfold callCleanup
  split
  rename_i o st1 heq
  rw [heq] at h1
  simp only at h1 ⊢
  generalize endOf o c.cb = o'
  have h2 := inv_emit h1 (.ended c.reg (o'.map Exn.kind)) rfl
  split
  · exact h2
  · split
    · split
      · exact inv_emit (inv_record h2 _ _) _ rfl
      · exact h2
    · exact h2

theorem inv_guardedCall {act} (c : Reg) {st : St} (h : Inv act st) :
    Inv act (guardedCall c st).2 := by
  have h1 := inv_callCleanup c h
  unfold guardedCall
  split
  · rename_i heq; rw [heq] at h1; exact h1
  · rename_i e rec st1 heq
    rw [heq] at h1
    simp only
    have h2 : Inv act (if (rec || st1.curResult.isNone) = true then st1
      else (st1.record st1.currentForUpdate e.kind).emit (.recorded c.reg st1.currentForUpdate e.kind)) := by
      split
      · exact h1
      · exact inv_emit (inv_record h1 _ _) _ rfl
    split <;> exact h2

theorem passOver_iff (cb : Cb) (f i : Bool) :
    passOver cb f i = true ↔ ¬ Rule f i cb.critical cb.successOnly := by
  unfold passOver Rule
  cases f <;> cases i <;> cases cb.critical <;> cases cb.successOnly <;> decide

/-- state after taking the newest cleanup off scope `u` and logging `e` -/
def taken (st : St) (u : Nat) (rest : List Reg) (e : Ev) : St :=
  { st with cleanups := fun v => if v = u then rest else st.cleanups v }.emit e

theorem inv_taken {st : St} {u : Nat} {f i : Bool} (h : Inv (some (u, f, i)) st) {c : Reg}
    {rest : List Reg} (hc : st.cleanups u = c :: rest) {e : Ev}
    (he : (e = .ran c.reg u ∧ Rule f i c.cb.critical c.cb.successOnly) ∨
          (e = .skipped c.reg u ∧ ¬ Rule f i c.cb.critical c.cb.successOnly)) :
    Inv (some (u, f, i)) (taken st u rest e) := by
  have hu : u ∈ st.stack := (h.actIn u f i rfl).2
  have hd : isDisp e = some (c.reg, u) := by rcases he with ⟨rfl, _⟩ | ⟨rfl, _⟩ <;> rfl
  have hnp : ∀ r v, Ev.placed r v ≠ e := by
    intro r v heq; rcases he with ⟨rfl, _⟩ | ⟨rfl, _⟩ <;> cases heq
  have hnc : ∀ r a b, Ev.closing r a b ≠ e := by
    intro r v w heq; rcases he with ⟨rfl, _⟩ | ⟨rfl, _⟩ <;> cases heq
  have hna : ∀ r a b d, Ev.added r a b d ≠ e := by
    intro r v w d heq; rcases he with ⟨rfl, _⟩ | ⟨rfl, _⟩ <;> cases heq
  have hl : (taken st u rest e).log = st.log ++ [e] := rfl
  have hcu : (taken st u rest e).cleanups u = rest := by simp [taken, St.emit]
  have hcv : ∀ v, v ≠ u → (taken st u rest e).cleanups v = st.cleanups v := by
    intro v hv; simp [taken, St.emit, hv]
  have hp : (taken st u rest e).pending = st.pending := rfl
  have hn : (taken st u rest e).nextReg = st.nextReg := rfl
  have e1 : (taken st u rest e).stack = st.stack := rfl
  have e2 : (taken st u rest e).byName = st.byName := rfl
  have e3 : (taken st u rest e).scopeName = st.scopeName := rfl
  have e4 : (taken st u rest e).nextUid = st.nextUid := rfl
  generalize taken st u rest e = st' at *
  have hsub : ∀ x ∈ st.log, x ∈ st'.log := by intro x hx; rw [hl]; simp [hx]
  have hpl : ∀ r v, Ev.placed r v ∈ st'.log → Ev.placed r v ∈ st.log := by
    intro r v hm; rw [hl] at hm; simpa [hnp] using hm
  have hcl : ∀ r a b, Ev.closing r a b ∈ st'.log → Ev.closing r a b ∈ st.log := by
    intro r a b hm; rw [hl] at hm; simpa [hnc] using hm
  have had : ∀ r a b d, Ev.added r a b d ∈ st'.log → Ev.added r a b d ∈ st.log := by
    intro r a b d hm; rw [hl] at hm; simpa [hna] using hm
  have hcsub : ∀ v x, x ∈ st'.cleanups v → x ∈ st.cleanups v := by
    intro v x hx
    by_cases hv : v = u
    · subst hv; rw [hcu] at hx; rw [hc]; simp [hx]
    · rw [hcv v hv] at hx; exact hx
  have hact := h.actIn u f i rfl
  have hinfo := h.info c (.inr ⟨u, by rw [hc]; simp⟩)
  constructor
  · rw [e1]; exact h.nodup
  · rw [e1, e4]; exact h.lt
  · intro r v hm; rw [e4]; exact h.ltLog r v (hpl r v hm)
  · intro v a b hm; rw [e4]; exact h.ltClosing v a b (hcl _ _ _ hm)
  · intro v hv
    rw [e1] at hv
    have : v ≠ u := fun hvu => hv (hvu ▸ hu)
    rw [hcv v this]; exact h.closedEmpty v hv
  · rw [e1, e2, e3]; exact h.byName
  · rw [hl, hp, hn, e1, disposed_append]
    have hd1 : disposed [e] = [c.reg] := by simp [disposed, hd]
    rw [hd1]
    have hf := flatMap_update_cons (fun v => (st'.cleanups v).map Reg.reg)
      (fun v => (st.cleanups v).map Reg.reg) u c.reg st.stack h.nodup hu
      (by simp only [hcu, hc, List.map_cons]) (by intro v hv; simp only [hcv v hv])
    refine List.Perm.trans ?_ h.conserve
    refine List.Perm.trans ?_ (List.Perm.append_right _ (List.Perm.append_left _ hf)).symm
    rw [← List.append_assoc]
    refine (List.perm_append_singleton _ _).trans ?_
    rw [List.append_assoc, List.append_assoc]
    exact List.perm_middle.symm
  · have hz : addedReg e = none := by rcases he with ⟨rfl, _⟩ | ⟨rfl, _⟩ <;> rfl
    rw [hl, List.filterMap_append, h.serial, hn]; simp [hz]
  · intro r v hm; rw [e1]; rw [hl] at hm
    have hz : Ev.dropped r v ≠ e := by rcases he with ⟨rfl, _⟩ | ⟨rfl, _⟩ <;> simp
    exact h.dropClosed r v (by simpa [hz] using hm)
  · rw [e1, hp]; exact h.pend
  · intro v
    by_cases hv : v = u
    · subst hv
      have := h.dec v
      rw [hc, List.pairwise_cons] at this
      rw [hcu]; exact this.2
    · rw [hcv v hv]; exact h.dec v
  · rw [hp]; exact h.pendInc
  · intro v x hx
    exact hsub _ (h.placed v x (hcsub v x hx))
  · intro r v hm
    rcases h.outstanding r v (hpl r v hm) with h1 | ⟨x, hx, h2⟩
    · by_cases hv : v = u
      · subst hv
        rw [hc] at h1
        simp only [List.map_cons, List.mem_cons] at h1
        rcases h1 with h1 | h1
        · right; exact ⟨e, by rw [hl]; simp, by rw [hd, h1]⟩
        · left; rw [hcu]; exact h1
      · left; rw [hcv v hv]; exact h1
    · exact .inr ⟨x, hsub _ hx, h2⟩
  · intro x hx r v hdx
    rw [hl] at hx
    rcases List.mem_append.1 hx with h1 | h1
    · exact hsub _ (h.dispPlaced x h1 r v hdx)
    · simp only [List.mem_singleton] at h1
      subst h1
      rw [hd] at hdx
      cases hdx
      exact hsub _ (h.placed u c (by rw [hc]; simp))
  · intro x hx
    rw [hp] at hx
    apply hsub
    apply h.info
    rcases hx with h1 | ⟨v, h1⟩
    · exact .inl h1
    · exact .inr ⟨v, hcsub v x h1⟩
  · intro r a b d hm; rw [hn]; exact h.addedLt _ _ _ _ (had _ _ _ _ hm)
  · intro r a b d a' b' d' h1 h2
    exact h.addedUniq _ _ _ _ _ _ _ (had _ _ _ _ h1) (had _ _ _ _ h2)
  · rw [hl]
    apply lifo_append h.lifo
    intro r v heq
    have hrv : r = c.reg ∧ v = u := by
      rcases he with ⟨h1, _⟩ | ⟨h1, _⟩
      · rw [h1] at heq; cases heq; exact ⟨rfl, rfl⟩
      · rw [h1] at heq; cases heq
    obtain ⟨rfl, rfl⟩ := hrv
    intro r' hr' hm
    rcases h.outstanding r' v hm with h1 | ⟨x, hx, h2⟩
    · rw [hc] at h1
      simp only [List.map_cons, List.mem_cons, List.mem_map] at h1
      have hdec := h.dec v
      rw [hc, List.pairwise_cons] at hdec
      rcases h1 with h1 | ⟨y, hy, h1⟩
      · omega
      · have := hdec.1 y hy; omega
    · cases x <;> simp only [isDisp, Option.some.injEq, Prod.mk.injEq, reduceCtorEq] at h2
      · obtain ⟨rfl, rfl⟩ := h2; exact .inl hx
      · obtain ⟨rfl, rfl⟩ := h2; exact .inr hx
      · obtain ⟨rfl, rfl⟩ := h2; exact absurd hu (h.dropClosed _ _ hx)
  · intro v hv a b hm
    rw [e1] at hv
    exact h.actOnly v hv a b (hcl _ _ _ hm)
  · intro v a b ha
    have := h.actIn v a b ha
    rw [e1]
    exact ⟨hsub _ this.1, this.2⟩
  · intro v a b a' b' h1 h2
    exact h.closingUniq _ _ _ _ _ (hcl _ _ _ h1) (hcl _ _ _ h2)
  · intro r v hm
    rw [hl] at hm
    rcases List.mem_append.1 hm with h1 | h1
    · obtain ⟨f', i', c', s', x', g1, g2, g3⟩ := h.ranRule r v h1
      exact ⟨f', i', c', s', x', hsub _ g1, hsub _ g2, g3⟩
    · simp only [List.mem_singleton] at h1
      rcases he with ⟨g1, g2⟩ | ⟨g1, g2⟩
      · rw [g1] at h1; cases h1
        exact ⟨f, i, _, _, _, hsub _ hact.1, hsub _ hinfo, g2⟩
      · rw [g1] at h1; cases h1
  · intro r v hm
    rw [hl] at hm
    rcases List.mem_append.1 hm with h1 | h1
    · obtain ⟨f', i', c', s', x', g1, g2, g3⟩ := h.skipRule r v h1
      exact ⟨f', i', c', s', x', hsub _ g1, hsub _ g2, g3⟩
    · simp only [List.mem_singleton] at h1
      rcases he with ⟨g1, g2⟩ | ⟨g1, g2⟩
      · rw [g1] at h1; cases h1
      · rw [g1] at h1; cases h1
        exact ⟨f, i, _, _, _, hsub _ hact.1, hsub _ hinfo, g2⟩

theorem callLoopN_fuel {u : Nat} {f i : Bool} : ∀ (n m : Nat) (st : St),
    totalSize (st.cleanups u) < n → totalSize (st.cleanups u) < m →
    callLoopN n u f i st = callLoopN m u f i st := by
  intro n
  induction n with
  | zero => intro m st h; omega
  | succ n ih =>
    intro m st h1 h2
    cases m with
    | zero => omega
    | succ m =>
      simp only [callLoopN]
      cases hst : st.cleanups u with
      | nil => rfl
      | cons c rest =>
        rw [hst, totalSize_cons] at h1 h2
        have hsz : c.cb.size = 1 + Act.sizes c.cb.acts := by cases c.cb; simp [Cb.size, Cb.acts]
        simp only
        split
        · apply ih
          · simp only [St.emit, if_true]; omega
          · simp only [St.emit, if_true]; omega
        · split
          · rfl
          · rename_i st2 hg
            have hs := guardedCall_size c (taken st u rest (.ran c.reg u)) u
            simp only [taken] at hs
            rw [hg] at hs
            simp only [St.emit, if_true] at hs
            exact ih _ _ (by omega) (by omega)

/-- The loop equations. -/
theorem callLoop_nil {u : Nat} {f i : Bool} {st : St} (h : st.cleanups u = []) :
    callLoop u f i st = (none, st) := by
  simp [callLoop, callLoopN, h]

theorem callLoop_skip {u : Nat} {f i : Bool} {st : St} {c : Reg} {rest : List Reg}
    (h : st.cleanups u = c :: rest) (hp : passOver c.cb f i = true) :
    callLoop u f i st = callLoop u f i (taken st u rest (.skipped c.reg u)) := by
  have hsz : c.cb.size = 1 + Act.sizes c.cb.acts := by cases c.cb; simp [Cb.size, Cb.acts]
  have hcu : (taken st u rest (.skipped c.reg u)).cleanups u = rest := by simp [taken, St.emit]
  have h1 : callLoop u f i st =
      callLoopN (totalSize (st.cleanups u)) u f i (taken st u rest (.skipped c.reg u)) := by
    simp only [callLoop, callLoopN, h, hp, if_true]; rfl
  rw [h1, callLoop]
  apply callLoopN_fuel
  · rw [hcu, h, totalSize_cons]; omega
  · omega

theorem callLoop_run {u : Nat} {f i : Bool} {st : St} {c : Reg} {rest : List Reg}
    (h : st.cleanups u = c :: rest) (hp : passOver c.cb f i = false) :
    callLoop u f i st =
      match guardedCall c (taken st u rest (.ran c.reg u)) with
      | (some e, st2) => (some e, st2)
      | (none, st2) => callLoop u f i st2 := by
  have h1 : callLoop u f i st =
      match guardedCall c (taken st u rest (.ran c.reg u)) with
      | (some e, st2) => (some e, st2)
      | (none, st2) => callLoopN (totalSize (st.cleanups u)) u f i st2 := by
    simp only [callLoop, callLoopN, h, hp, Bool.false_eq_true, if_false]; rfl
  rw [h1]
  have hs := guardedCall_size c (taken st u rest (.ran c.reg u)) u
  have hcu : (taken st u rest (.ran c.reg u)).cleanups u = rest := by simp [taken, St.emit]
  split
  · rename_i heq; simp only [heq]
  · rename_i heq
    rw [heq, hcu] at hs
    simp only [heq, callLoop]
    apply callLoopN_fuel
    · rw [h, totalSize_cons]; simp only at hs; omega
    · omega

/-- Induction principle for the loop: a property of (start, outcome, end). -/
theorem callLoop_ind {u : Nat} {f i : Bool} {P : St → Option Exn → St → Prop}
    (hnil : ∀ st, st.cleanups u = [] → P st none st)
    (hskip : ∀ st c rest o st', st.cleanups u = c :: rest → passOver c.cb f i = true →
      P (taken st u rest (.skipped c.reg u)) o st' → P st o st')
    (hstop : ∀ st c rest e st', st.cleanups u = c :: rest → passOver c.cb f i = false →
      guardedCall c (taken st u rest (.ran c.reg u)) = (some e, st') → P st (some e) st')
    (hrun : ∀ st c rest st1 o st', st.cleanups u = c :: rest → passOver c.cb f i = false →
      guardedCall c (taken st u rest (.ran c.reg u)) = (none, st1) → P st1 o st' → P st o st')
    (st : St) : P st (callLoop u f i st).1 (callLoop u f i st).2 := by
  suffices H : ∀ n st, totalSize (st.cleanups u) ≤ n → P st (callLoop u f i st).1 (callLoop u f i st).2 from
    H _ st (Nat.le_refl _)
  intro n
  induction n using Nat.strongRecOn with
  | ind n ih =>
    intro st hn
    cases hst : st.cleanups u with
    | nil => rw [callLoop_nil hst]; exact hnil st hst
    | cons c rest =>
      have hsz : c.cb.size = 1 + Act.sizes c.cb.acts := by cases c.cb; simp [Cb.size, Cb.acts]
      have hcu : ∀ e, (taken st u rest e).cleanups u = rest := by intro e; simp [taken, St.emit]
      rw [hst, totalSize_cons] at hn
      cases hp : passOver c.cb f i with
      | true =>
        rw [callLoop_skip hst hp]
        apply hskip st c rest _ _ hst hp
        exact ih (totalSize rest) (by omega) _ (by rw [hcu]; omega)
      | false =>
        rw [callLoop_run hst hp]
        cases hg : guardedCall c (taken st u rest (.ran c.reg u)) with
        | mk o st2 =>
          cases o with
          | some e => exact hstop st c rest e st2 hst hp hg
          | none =>
            have hs := guardedCall_size c (taken st u rest (.ran c.reg u)) u
            rw [hg, hcu] at hs
            exact hrun st c rest st2 _ _ hst hp hg
              (ih (totalSize (st2.cleanups u)) (by simp only at hs; omega) _ (Nat.le_refl _))

theorem inv_callLoop {u : Nat} {f i : Bool} {st : St} (h : Inv (some (u, f, i)) st) :
    Inv (some (u, f, i)) (callLoop u f i st).2 := by
  revert h
  apply callLoop_ind (P := fun st _ st' => Inv (some (u, f, i)) st → Inv (some (u, f, i)) st')
  · intro st _ h; exact h
  · intro st c rest o st' hc hp ih h
    exact ih (inv_taken h hc (.inr ⟨rfl, (passOver_iff ..).1 hp⟩))
  · intro st c rest e st' hc hp hg h
    have hr : Rule f i c.cb.critical c.cb.successOnly := by
      have := passOver_iff c.cb f i
      rw [hp] at this; simpa using this
    have := inv_guardedCall c (inv_taken h hc (.inl ⟨rfl, hr⟩))
    rw [hg] at this; exact this
  · intro st c rest st1 o st' hc hp hg ih h
    have hr : Rule f i c.cb.critical c.cb.successOnly := by
      have := passOver_iff c.cb f i
      rw [hp] at this; simpa using this
    have := inv_guardedCall c (inv_taken h hc (.inl ⟨rfl, hr⟩))
    rw [hg] at this; exact ih this

theorem inv_closing {st : St} (h : Inv none st) {u : Nat} (hu : u ∈ st.stack) (f i : Bool) :
    Inv (some (u, f, i)) (st.emit (.closing u f i)) := by
  have hl : (st.emit (.closing u f i)).log = st.log ++ [.closing u f i] := rfl
  have hs : Same st (st.emit (.closing u f i)) := ⟨rfl, rfl, rfl, rfl, rfl, rfl, rfl⟩
  generalize st.emit (.closing u f i) = st' at *
  obtain ⟨s1, s2, s3, s4, s5, s6, s7⟩ := hs
  have hsub : ∀ x ∈ st.log, x ∈ st'.log := by intro x hx; rw [hl]; simp [hx]
  have hpl : ∀ r v, Ev.placed r v ∈ st'.log → Ev.placed r v ∈ st.log := by
    intro r v hm; rw [hl] at hm; simpa using hm
  have had : ∀ r a b d, Ev.added r a b d ∈ st'.log → Ev.added r a b d ∈ st.log := by
    intro r a b d hm; rw [hl] at hm; simpa using hm
  have hno : ∀ v ∈ st.stack, ∀ a b, Ev.closing v a b ∉ st.log := by
    intro v hv a b hm
    have := h.actOnly v hv a b hm
    cases this
  have hcl : ∀ v a b, Ev.closing v a b ∈ st'.log → Ev.closing v a b ∈ st.log ∨ (v = u ∧ a = f ∧ b = i) := by
    intro v a b hm; rw [hl] at hm; simpa using hm
  constructor
  · rw [s1]; exact h.nodup
  · rw [s1, s6]; exact h.lt
  · intro r v hm; rw [s6]; exact h.ltLog r v (hpl r v hm)
  · intro v a b hm; rw [s6]
    rcases hcl _ _ _ hm with h1 | ⟨rfl, _, _⟩
    · exact h.ltClosing v a b h1
    · exact h.lt _ hu
  · rw [s1, s4]; exact h.closedEmpty
  · rw [s1, s2, s3]; exact h.byName
  · rw [hl, disposed_append, s1, s4, s5, s7]
    have : disposed [Ev.closing u f i] = [] := rfl
    rw [this, List.append_nil]; exact h.conserve
  · rw [hl, List.filterMap_append, h.serial, s7]; simp [addedReg]
  · intro r v hm; rw [s1]; rw [hl] at hm; exact h.dropClosed r v (by simpa using hm)
  · rw [s1, s5]; exact h.pend
  · rw [s4]; exact h.dec
  · rw [s5]; exact h.pendInc
  · rw [s4]; intro v c hc; exact hsub _ (h.placed v c hc)
  · intro r v hm
    rw [s4]
    rcases h.outstanding r v (hpl r v hm) with h1 | ⟨e, he, h2⟩
    · exact .inl h1
    · exact .inr ⟨e, hsub _ he, h2⟩
  · intro e he r v hd
    rw [hl] at he
    rcases List.mem_append.1 he with h1 | h1
    · exact hsub _ (h.dispPlaced e h1 r v hd)
    · simp only [List.mem_singleton] at h1; subst h1; cases hd
  · intro c hc; rw [s4, s5] at hc; exact hsub _ (h.info c hc)
  · intro r a b d hm; rw [s7]; exact h.addedLt _ _ _ _ (had _ _ _ _ hm)
  · intro r a b d a' b' d' h1 h2
    exact h.addedUniq _ _ _ _ _ _ _ (had _ _ _ _ h1) (had _ _ _ _ h2)
  · rw [hl]; exact lifo_append h.lifo (by intro r v he; cases he)
  · intro v hv a b hm
    rw [s1] at hv
    rcases hcl _ _ _ hm with h1 | ⟨rfl, rfl, rfl⟩
    · exact absurd h1 (hno v hv a b)
    · rfl
  · intro v a b ha
    cases ha
    rw [s1]
    exact ⟨by rw [hl]; simp, hu⟩
  · intro v a b a' b' h1 h2
    rcases hcl _ _ _ h1 with g1 | ⟨rfl, rfl, rfl⟩ <;> rcases hcl _ _ _ h2 with g2 | ⟨g2, rfl, rfl⟩
    · exact h.closingUniq _ _ _ _ _ g1 g2
    · subst g2; exact absurd g1 (hno _ hu _ _)
    · exact absurd g2 (hno _ hu _ _)
    · exact ⟨rfl, rfl⟩
  · intro r v hr
    rw [hl] at hr
    simp only [List.mem_append, List.mem_singleton, reduceCtorEq, or_false] at hr
    obtain ⟨f', i', c, s, x, h1, h2, h3⟩ := h.ranRule r v hr
    exact ⟨f', i', c, s, x, hsub _ h1, hsub _ h2, h3⟩
  · intro r v hr
    rw [hl] at hr
    simp only [List.mem_append, List.mem_singleton, reduceCtorEq, or_false] at hr
    obtain ⟨f', i', c, s, x, h1, h2, h3⟩ := h.skipRule r v hr
    exact ⟨f', i', c, s, x, hsub _ h1, hsub _ h2, h3⟩

/-- what `finally` of `pop_scope` leaves -/
def discarded (st : St) (name : String) (u : Nat) : St :=
  { st with
    stack := st.stack.tail
    byName := fun n => if n = name then (st.byName n).map List.tail else st.byName n
    cleanups := fun v => if v = u then [] else st.cleanups v
    log := st.log ++ (st.cleanups u).map (fun c => .dropped c.reg u) ++ [.closed u] }

theorem disposed_dropped (l : List Reg) (u : Nat) :
    disposed (l.map (fun c => Ev.dropped c.reg u)) = l.map Reg.reg := by
  induction l with
  | nil => rfl
  | cons a l ih =>
    have : disposed (Ev.dropped a.reg u :: l.map (fun c => Ev.dropped c.reg u))
      = a.reg :: disposed (l.map (fun c => Ev.dropped c.reg u)) := by simp [disposed, isDisp]
    simp only [List.map_cons, this, ih]

theorem inv_discarded {st : St} {u : Nat} {f i : Bool} {tl : List Nat} {name : String}
    (h : Inv (some (u, f, i)) st) (hst : st.stack = u :: tl) (hname : st.scopeName u = name) :
    Inv none (discarded st name u) := by
  have hl : (discarded st name u).log =
    st.log ++ (st.cleanups u).map (fun c => .dropped c.reg u) ++ [.closed u] := rfl
  have e1 : (discarded st name u).stack = tl := by simp [discarded, hst]
  have e2 : (discarded st name u).byName =
    fun n => if n = name then (st.byName n).map List.tail else st.byName n := rfl
  have e3 : (discarded st name u).scopeName = st.scopeName := rfl
  have e4 : (discarded st name u).nextUid = st.nextUid := rfl
  have hn : (discarded st name u).nextReg = st.nextReg := rfl
  have hp : (discarded st name u).pending = st.pending := rfl
  have hcu : (discarded st name u).cleanups u = [] := by simp [discarded]
  have hcv : ∀ v, v ≠ u → (discarded st name u).cleanups v = st.cleanups v := by
    intro v hv; simp [discarded, hv]
  generalize discarded st name u = st' at *
  have hnd := h.nodup
  rw [hst, List.nodup_cons] at hnd
  have hsub : ∀ x ∈ st.log, x ∈ st'.log := by intro x hx; rw [hl]; simp [hx]
  have hpl : ∀ r v, Ev.placed r v ∈ st'.log → Ev.placed r v ∈ st.log := by
    intro r v hm; rw [hl] at hm; simpa using hm
  have hcl : ∀ r a b, Ev.closing r a b ∈ st'.log → Ev.closing r a b ∈ st.log := by
    intro r a b hm; rw [hl] at hm; simpa using hm
  have had : ∀ r a b d, Ev.added r a b d ∈ st'.log → Ev.added r a b d ∈ st.log := by
    intro r a b d hm; rw [hl] at hm; simpa using hm
  have hcsub : ∀ v x, x ∈ st'.cleanups v → x ∈ st.cleanups v := by
    intro v x hx
    by_cases hv : v = u
    · subst hv; rw [hcu] at hx; cases hx
    · rw [hcv v hv] at hx; exact hx
  have hpend : st.pending = [] := h.pend (by rw [hst]; simp)
  constructor
  · rw [e1]; exact hnd.2
  · rw [e1, e4]; intro v hv; exact h.lt v (by rw [hst]; simp [hv])
  · intro r v hm; rw [e4]; exact h.ltLog r v (hpl r v hm)
  · intro v a b hm; rw [e4]; exact h.ltClosing v a b (hcl _ _ _ hm)
  · intro v hv
    by_cases hvu : v = u
    · subst hvu; exact hcu
    · rw [hcv v hvu]; rw [e1] at hv
      exact h.closedEmpty v (by rw [hst]; simp [hv, hvu])
  · intro n
    rw [e1, e2, e3]
    have hb := h.byName n
    rw [hst] at hb
    by_cases hnn : n = name
    · subst hnn
      simp only [if_true]
      rw [List.filter_cons_of_pos (by simpa using hname)] at hb
      cases hbn : st.byName n with
      | none => rw [hbn] at hb; cases hb
      | some l =>
        rw [hbn] at hb
        simp only [Option.getD_some] at hb
        simp [hb]
    · simp only [hnn, if_false]
      rw [hb, List.filter_cons_of_neg]
      simp only [hname, decide_eq_true_eq]
      exact fun hx => hnn hx.symm
  · rw [hl, hp, hn, e1, disposed_append, disposed_append, disposed_dropped]
    have hd : disposed [Ev.closed u] = [] := rfl
    rw [hd, List.append_nil]
    have hc := h.conserve
    rw [hst, List.flatMap_cons] at hc
    have hfm : tl.flatMap (fun v => (st'.cleanups v).map Reg.reg)
        = tl.flatMap (fun v => (st.cleanups v).map Reg.reg) := by
      apply flatMap_congr_mem
      intro v hv
      have : v ≠ u := fun hvu => hnd.1 (hvu ▸ hv)
      rw [hcv v this]
    rw [hfm]
    refine List.Perm.trans ?_ hc
    generalize st.pending.map Reg.reg = A
    generalize (st.cleanups u).map Reg.reg = B
    generalize tl.flatMap (fun v => (st.cleanups v).map Reg.reg) = C
    generalize disposed st.log = D
    -- A ++ C ++ (D ++ B) ~ A ++ (B ++ C) ++ D
    simp only [List.append_assoc]
    apply List.Perm.append_left
    calc (C ++ (D ++ B)).Perm ((C ++ D) ++ B) := by simp
      _ |>.Perm (B ++ (C ++ D)) := List.perm_append_comm
  · have hz : ((st.cleanups u).map (fun c => Ev.dropped c.reg u)).filterMap addedReg = [] := by
      simp [addedReg]
    rw [hl, List.filterMap_append, List.filterMap_append, h.serial, hn, hz]; simp [addedReg]
  · intro r v hm
    rw [hl] at hm
    simp only [List.mem_append, List.mem_map, List.mem_singleton, reduceCtorEq, or_false, Ev.dropped.injEq] at hm
    rw [e1]
    rcases hm with h1 | ⟨_, _, _, h1⟩
    · have := h.dropClosed r v h1
      rw [hst] at this
      simp only [List.mem_cons, not_or] at this
      exact this.2
    · exact h1 ▸ hnd.1
  · intro _; rw [hp]; exact hpend
  · intro v
    by_cases hv : v = u
    · subst hv; rw [hcu]; exact List.Pairwise.nil
    · rw [hcv v hv]; exact h.dec v
  · rw [hp]; exact h.pendInc
  · intro v x hx; exact hsub _ (h.placed v x (hcsub v x hx))
  · intro r v hm
    rcases h.outstanding r v (hpl r v hm) with h1 | ⟨x, hx, h2⟩
    · by_cases hv : v = u
      · subst hv
        right
        obtain ⟨c, hc, rfl⟩ := List.mem_map.1 h1
        refine ⟨.dropped c.reg v, ?_, rfl⟩
        rw [hl]
        simp only [List.mem_append, List.mem_map, List.mem_singleton]
        exact .inl (.inr ⟨c, hc, rfl⟩)
      · left; rw [hcv v hv]; exact h1
    · exact .inr ⟨x, hsub _ hx, h2⟩
  · intro x hx r v hdx
    rw [hl] at hx
    simp only [List.mem_append, List.mem_map, List.mem_singleton] at hx
    rcases hx with (h1 | ⟨c, hc, rfl⟩) | h1
    · exact hsub _ (h.dispPlaced x h1 r v hdx)
    · cases hdx; exact hsub _ (h.placed _ c hc)
    · subst h1; cases hdx
  · intro x hx
    rw [hp] at hx
    apply hsub; apply h.info
    rcases hx with h1 | ⟨v, h1⟩
    · exact .inl h1
    · exact .inr ⟨v, hcsub v x h1⟩
  · intro r a b d hm; rw [hn]; exact h.addedLt _ _ _ _ (had _ _ _ _ hm)
  · intro r a b d a' b' d' h1 h2
    exact h.addedUniq _ _ _ _ _ _ _ (had _ _ _ _ h1) (had _ _ _ _ h2)
  · rw [hl, List.append_assoc]
    apply lifo_append_list h.lifo
    intro e he r v heq
    subst heq
    simp at he
  · intro v hv a b hm
    rw [e1] at hv
    have := h.actOnly v (by rw [hst]; simp [hv]) a b (hcl _ _ _ hm)
    simp only [Option.some.injEq, Prod.mk.injEq] at this
    exact absurd hv (this.1 ▸ hnd.1)
  · intro v a b ha; cases ha
  · intro v a b a' b' h1 h2
    exact h.closingUniq _ _ _ _ _ (hcl _ _ _ h1) (hcl _ _ _ h2)
  · intro r v hr
    rw [hl] at hr
    simp only [List.mem_append, List.mem_singleton, List.mem_map, reduceCtorEq, and_false, exists_false, or_false] at hr
    obtain ⟨f', i', c, s, x, h1, h2, h3⟩ := h.ranRule r v hr
    exact ⟨f', i', c, s, x, hsub _ h1, hsub _ h2, h3⟩
  · intro r v hr
    rw [hl] at hr
    simp only [List.mem_append, List.mem_singleton, List.mem_map, reduceCtorEq, and_false, exists_false, or_false] at hr
    obtain ⟨f', i', c, s, x, h1, h2, h3⟩ := h.skipRule r v hr
    exact ⟨f', i', c, s, x, hsub _ h1, hsub _ h2, h3⟩

theorem inv_push {st : St} (h : Inv none st) (name : String) : Inv none (pushScope name st) := by
  have hu : st.nextUid ∉ st.stack := fun hm => Nat.lt_irrefl _ (h.lt _ hm)
  have hcu0 : st.cleanups st.nextUid = [] := h.closedEmpty _ hu
  have hl : (pushScope name st).log =
    st.log ++ [.opened st.nextUid name] ++ st.pending.map (fun r => .placed r.reg st.nextUid) := rfl
  have e1 : (pushScope name st).stack = st.nextUid :: st.stack := rfl
  have e2 : (pushScope name st).byName = fun n => if n = name then
    some (st.nextUid :: (st.byName n).getD []) else st.byName n := rfl
  have e3 : (pushScope name st).scopeName = fun v => if v = st.nextUid then name else st.scopeName v := rfl
  have e4 : (pushScope name st).nextUid = st.nextUid + 1 := rfl
  have hn : (pushScope name st).nextReg = st.nextReg := rfl
  have hp : (pushScope name st).pending = [] := rfl
  have hcu : (pushScope name st).cleanups st.nextUid = st.pending.reverse := by simp [pushScope, St.emit]
  have hcv : ∀ v, v ≠ st.nextUid → (pushScope name st).cleanups v = st.cleanups v := by
    intro v hv; simp [pushScope, St.emit, hv]
  generalize pushScope name st = st' at *
  have hsub : ∀ x ∈ st.log, x ∈ st'.log := by intro x hx; rw [hl]; simp [hx]
  have hpl : ∀ r v, Ev.placed r v ∈ st'.log → Ev.placed r v ∈ st.log ∨
      (v = st.nextUid ∧ ∃ c ∈ st.pending, c.reg = r) := by
    intro r v hm; rw [hl] at hm
    simp only [List.mem_append, List.mem_singleton, List.mem_map, reduceCtorEq, or_false, Ev.placed.injEq] at hm
    rcases hm with h1 | ⟨c, hc, h1, h2⟩
    · exact .inl h1
    · exact .inr ⟨h2.symm, c, hc, h1⟩
  have hcl : ∀ r a b, Ev.closing r a b ∈ st'.log → Ev.closing r a b ∈ st.log := by
    intro r a b hm; rw [hl] at hm; simpa using hm
  have had : ∀ r a b d, Ev.added r a b d ∈ st'.log → Ev.added r a b d ∈ st.log := by
    intro r a b d hm; rw [hl] at hm; simpa using hm
  constructor
  · rw [e1, List.nodup_cons]; exact ⟨hu, h.nodup⟩
  · rw [e1, e4]; intro v hv
    rcases List.mem_cons.1 hv with h1 | h1
    · omega
    · have := h.lt v h1; omega
  · intro r v hm; rw [e4]
    rcases hpl r v hm with h1 | ⟨h1, _⟩
    · have := h.ltLog r v h1; omega
    · omega
  · intro v a b hm; rw [e4]; have := h.ltClosing v a b (hcl _ _ _ hm); omega
  · intro v hv
    rw [e1, List.mem_cons, not_or] at hv
    rw [hcv v hv.1]; exact h.closedEmpty v hv.2
  · intro n
    rw [e1, e2, e3]
    have hfil : ∀ n', st.stack.filter (fun u => decide ((if u = st.nextUid then name else st.scopeName u) = n'))
        = st.stack.filter (fun u => decide (st.scopeName u = n')) := by
      intro n'
      apply List.filter_congr
      intro v hv
      have : v ≠ st.nextUid := fun hvu => hu (hvu ▸ hv)
      simp [this]
    by_cases hnn : n = name
    · subst hnn
      simp only [if_true, Option.getD_some]
      rw [List.filter_cons_of_pos (by simp), hfil, h.byName]
    · simp only [hnn, if_false]
      rw [List.filter_cons_of_neg (by simp; exact fun hx => hnn hx.symm), hfil, h.byName]
  · rw [hl, hp, hn, e1, disposed_append, disposed_append]
    have hd1 : disposed [Ev.opened st.nextUid name] = [] := rfl
    have hd2 : disposed (st.pending.map (fun r => Ev.placed r.reg st.nextUid)) = [] := by
      simp [disposed, isDisp]
    rw [hd1, hd2, List.append_nil, List.append_nil, List.flatMap_cons, hcu]
    have hfm : st.stack.flatMap (fun v => (st'.cleanups v).map Reg.reg)
        = st.stack.flatMap (fun v => (st.cleanups v).map Reg.reg) := by
      apply flatMap_congr_mem
      intro v hv
      have : v ≠ st.nextUid := fun hvu => hu (hvu ▸ hv)
      rw [hcv v this]
    rw [hfm]
    refine List.Perm.trans ?_ h.conserve
    simp only [List.map_nil, List.nil_append, List.map_reverse, List.append_assoc]
    exact List.Perm.append_right _ (List.reverse_perm _)
  · have hz : (st.pending.map (fun r => Ev.placed r.reg st.nextUid)).filterMap addedReg = [] := by
      simp [addedReg]
    rw [hl, List.filterMap_append, List.filterMap_append, h.serial, hn, hz]; simp [addedReg]
  · intro r v hm
    rw [hl] at hm
    have hm' : Ev.dropped r v ∈ st.log := by simpa using hm
    rw [e1, List.mem_cons, not_or]
    have h1 := h.ltLog r v (h.dispPlaced _ hm' r v rfl)
    exact ⟨by omega, h.dropClosed r v hm'⟩
  · intro _; exact hp
  · intro v
    by_cases hv : v = st.nextUid
    · rw [hv, hcu, List.pairwise_reverse]; exact h.pendInc
    · rw [hcv v hv]; exact h.dec v
  · rw [hp]; exact List.Pairwise.nil
  · intro v c hc
    by_cases hv : v = st.nextUid
    · rw [hv, hcu] at hc
      rw [hl, hv]
      simp only [List.mem_append, List.mem_map]
      exact .inr ⟨c, by simpa using hc, rfl⟩
    · rw [hcv v hv] at hc; exact hsub _ (h.placed v c hc)
  · intro r v hm
    rcases hpl r v hm with h1 | ⟨h1, c, hc, h2⟩
    · have hv : v ≠ st.nextUid := by have := h.ltLog r v h1; omega
      rcases h.outstanding r v h1 with g1 | ⟨x, hx, g2⟩
      · left; rw [hcv v hv]; exact g1
      · exact .inr ⟨x, hsub _ hx, g2⟩
    · left
      rw [h1, hcu, List.mem_map]
      exact ⟨c, by simpa using hc, h2⟩
  · intro x hx r v hdx
    rw [hl] at hx
    simp only [List.mem_append, List.mem_map, List.mem_singleton] at hx
    rcases hx with (h1 | h1) | ⟨c, hc, rfl⟩
    · exact hsub _ (h.dispPlaced x h1 r v hdx)
    · subst h1; cases hdx
    · cases hdx
  · intro x hx
    apply hsub; apply h.info
    rcases hx with h1 | ⟨v, h1⟩
    · rw [hp] at h1; cases h1
    · by_cases hv : v = st.nextUid
      · rw [hv, hcu] at h1; exact .inl (by simpa using h1)
      · rw [hcv v hv] at h1; exact .inr ⟨v, h1⟩
  · intro r a b d hm; rw [hn]; exact h.addedLt _ _ _ _ (had _ _ _ _ hm)
  · intro r a b d a' b' d' h1 h2
    exact h.addedUniq _ _ _ _ _ _ _ (had _ _ _ _ h1) (had _ _ _ _ h2)
  · rw [hl, List.append_assoc]
    apply lifo_append_list h.lifo
    intro e he r v heq
    subst heq
    simp at he
  · intro v hv a b hm
    have hm' := hcl _ _ _ hm
    rw [e1] at hv
    rcases List.mem_cons.1 hv with h1 | h1
    · have := h.ltClosing _ _ _ hm'; omega
    · exact h.actOnly v h1 a b hm'
  · intro v a b ha; cases ha
  · intro v a b a' b' h1 h2
    exact h.closingUniq _ _ _ _ _ (hcl _ _ _ h1) (hcl _ _ _ h2)
  · intro r v hr
    rw [hl] at hr
    simp only [List.mem_append, List.mem_singleton, List.mem_map, reduceCtorEq, and_false, exists_false, or_false] at hr
    obtain ⟨f', i', c, s, x, h1, h2, h3⟩ := h.ranRule r v hr
    exact ⟨f', i', c, s, x, hsub _ h1, hsub _ h2, h3⟩
  · intro r v hr
    rw [hl] at hr
    simp only [List.mem_append, List.mem_singleton, List.mem_map, reduceCtorEq, and_false, exists_false, or_false] at hr
    obtain ⟨f', i', c, s, x, h1, h2, h3⟩ := h.skipRule r v hr
    exact ⟨f', i', c, s, x, hsub _ h1, hsub _ h2, h3⟩

/-- parts that running callbacks cannot change -/
structure Frame (st st' : St) : Prop where
  stack : st'.stack = st.stack
  byName : st'.byName = st.byName
  scopeName : st'.scopeName = st.scopeName
  nextUid : st'.nextUid = st.nextUid
  curResult : st'.curResult = st.curResult
  curTest : st'.curTest = st.curTest

theorem Frame.refl (st : St) : Frame st st := ⟨rfl, rfl, rfl, rfl, rfl, rfl⟩
theorem Frame.trans {a b c : St} (h : Frame a b) (h' : Frame b c) : Frame a c :=
  ⟨h'.1.trans h.1, h'.2.trans h.2, h'.3.trans h.3, h'.4.trans h.4, h'.5.trans h.5, h'.6.trans h.6⟩

theorem frame_record (st : St) (r : RKey) (k : Kind) : Frame st (st.record r k) := by
  unfold St.record; simp only; split <;> exact ⟨rfl, rfl, rfl, rfl, rfl, rfl⟩
theorem frame_emit (st : St) (e : Ev) : Frame st (st.emit e) := ⟨rfl, rfl, rfl, rfl, rfl, rfl⟩
theorem frame_place (cb : Cb) (uid : Option Nat) (st : St) : Frame st (place cb uid st) := by
  cases uid <;> exact ⟨rfl, rfl, rfl, rfl, rfl, rfl⟩
theorem frame_taken (st : St) (u : Nat) (rest : List Reg) (e : Ev) : Frame st (taken st u rest e) :=
  ⟨rfl, rfl, rfl, rfl, rfl, rfl⟩

theorem frame_addCleanup (sc : ScopeArg) (cb : Cb) (st : St) : Frame st (addCleanup sc cb st).2 := by
  unfold addCleanup
  split
  · exact Frame.refl _
  · split
    · exact Frame.refl _
    · exact frame_place ..

theorem frame_runActs (acts : List Act) (st : St) : Frame st (runActs acts st).2 := by
  induction acts generalizing st with
  | nil => exact Frame.refl _
  | cons a rest ih =>
    cases a with
    | add sc cb =>
      have h1 := frame_addCleanup sc cb st
      simp only [runActs]
      split <;> rename_i heq <;> rw [heq] at h1
      · exact h1
      · exact h1.trans (ih _)
    | note k =>
      simp only [runActs]
      split
      · exact (frame_record ..).trans (ih _)
      · exact Frame.refl _

theorem frame_callCleanup (c : Reg) (st : St) : Frame st (callCleanup c st).2 := by
  have h1 := frame_runActs c.cb.acts st
  unfold callCleanup
  split
  rename_i o st1 heq
  rw [heq] at h1
  simp only at h1 ⊢
  generalize endOf o c.cb = o'
  have h2 := h1.trans (frame_emit st1 (.ended c.reg (o'.map Exn.kind)))
  split
  · exact h2
  · split
    · split
      · exact (h2.trans (frame_record ..)).trans (frame_emit ..)
      · exact h2
    · exact h2

theorem frame_guardedCall (c : Reg) (st : St) : Frame st (guardedCall c st).2 := by
  have h1 := frame_callCleanup c st
  unfold guardedCall
  split
  · rename_i heq; rw [heq] at h1; exact h1
  · rename_i e rec st1 heq
    rw [heq] at h1
    simp only
    have h2 : Frame st (if (rec || st1.curResult.isNone) = true then st1
      else (st1.record st1.currentForUpdate e.kind).emit (.recorded c.reg st1.currentForUpdate e.kind)) := by
      split
      · exact h1
      · exact (h1.trans (frame_record ..)).trans (frame_emit ..)
    split <;> exact h2

theorem frame_callLoop (u : Nat) (f i : Bool) (st : St) : Frame st (callLoop u f i st).2 := by
  apply callLoop_ind (P := fun st _ st' => Frame st st')
  · intro st _; exact Frame.refl _
  · intro st c rest o st' hc hp ih; exact (frame_taken ..).trans ih
  · intro st c rest e st' hc hp hg
    have := (frame_taken st u rest (.ran c.reg u)).trans (frame_guardedCall c _)
    rw [hg] at this; exact this
  · intro st c rest st1 o st' hc hp hg ih
    have := (frame_taken st u rest (.ran c.reg u)).trans (frame_guardedCall c _)
    rw [hg] at this; exact this.trans ih

theorem frame_callCleanups (u : Nat) (f i : Bool) (hook : Option Kind) (st : St) :
    Frame st (callCleanups u f i hook st).2 := by
  unfold callCleanups
  split
  · simp only; split
    · exact Frame.refl _
    · exact frame_record ..
  · exact frame_callLoop ..

theorem inv_callCleanups {u : Nat} {f i : Bool} {hook : Option Kind} {st : St}
    (h : Inv (some (u, f, i)) st) : Inv (some (u, f, i)) (callCleanups u f i hook st).2 := by
  unfold callCleanups
  split
  · simp only; split
    · exact h
    · exact inv_record h _ _
  · exact inv_callLoop h

/-- The three ways `pop_scope` goes. -/
theorem popScope_cases (name : String) (hook : Option Kind) (ts : List Nat) (st : St) :
    (st.stack = [] ∧ popScope name hook ts st = (some .indexError, st)) ∨
    (∃ u tl, st.stack = u :: tl ∧ st.scopeName u ≠ name ∧ popScope name hook ts st = (some .internal, st)) ∨
    (∃ u tl, st.stack = u :: tl ∧ st.scopeName u = name ∧
      popScope name hook ts st =
        ((callCleanups u (popFlags st ts).1 (popFlags st ts).2 hook
            (st.emit (.closing u (popFlags st ts).1 (popFlags st ts).2))).1,
         discarded (callCleanups u (popFlags st ts).1 (popFlags st ts).2 hook
            (st.emit (.closing u (popFlags st ts).1 (popFlags st ts).2))).2 name u)) := by
  unfold popScope
  simp only
  split
  · rename_i hs; exact .inl ⟨hs, rfl⟩
  · rename_i u tl hs
    split
    · rename_i hn; exact .inr (.inl ⟨u, tl, hs, hn, rfl⟩)
    · rename_i hn
      right; right
      exact ⟨u, tl, hs, Decidable.not_not.1 hn, rfl⟩

theorem inv_popScope {st : St} (h : Inv none st) (name : String) (hook : Option Kind) (ts : List Nat) :
    Inv none (popScope name hook ts st).2 := by
  rcases popScope_cases name hook ts st with ⟨_, heq⟩ | ⟨u, tl, _, _, heq⟩ | ⟨u, tl, hs, hn, heq⟩
  · rw [heq]; exact h
  · rw [heq]; exact h
  · rw [heq]
    have hfr := (frame_emit st (.closing u (popFlags st ts).1 (popFlags st ts).2)).trans
      (frame_callCleanups u (popFlags st ts).1 (popFlags st ts).2 hook
        (st.emit (.closing u (popFlags st ts).1 (popFlags st ts).2)))
    exact inv_discarded (inv_callCleanups (inv_closing h (by rw [hs]; simp) _ _))
      (hfr.stack.trans hs) (by rw [hfr.scopeName]; exact hn)

theorem inv_step {st : St} (h : Inv none st) (op : Op) : Inv none (step st op).2 := by
  cases op with
  | push n => exact inv_push h n
  | pop n hk ts => exact inv_popScope h n hk ts
  | add sc cb => exact inv_addCleanup h sc cb
  | setImplicit b => exact inv_neutral h ⟨rfl, rfl, rfl, rfl, rfl, rfl, rfl⟩ [] (by simp [step]) (by simp)
  | setDefault b => exact inv_neutral h ⟨rfl, rfl, rfl, rfl, rfl, rfl, rfl⟩ [] (by simp [step]) (by simp)
  | setContext a b => exact inv_neutral h ⟨rfl, rfl, rfl, rfl, rfl, rfl, rfl⟩ [] (by simp [step]) (by simp)
  | note r k => exact inv_record h r k
  | start r => exact inv_neutral h ⟨rfl, rfl, rfl, rfl, rfl, rfl, rfl⟩ [] (by simp [step, St.updResult]) (by simp)

theorem inv_init : Inv none {} := by
  constructor <;> intros <;> simp_all [disposed, Lifo]

theorem inv_run (ops : List Op) {st : St} (h : Inv none st) : Inv none (run ops st) := by
  induction ops generalizing st with
  | nil => exact h
  | cons op ops ih => exact ih (inv_step h op)

/-! ### What the loop returns -/

theorem guardedCall_escapes {c : Reg} {st st' : St} {e : Exn} (h : guardedCall c st = (some e, st')) :
    e.kind.escapes = true := by
  unfold guardedCall at h
  split at h
  · cases h
  · simp only at h
    split at h
    · rename_i hesc; cases h; exact hesc
    · cases h

theorem callLoop_escapes {u : Nat} {f i : Bool} {st : St} {e : Exn}
    (h : (callLoop u f i st).1 = some e) : e.kind.escapes = true := by
  revert h
  apply callLoop_ind (P := fun _ o _ => o = some e → e.kind.escapes = true)
  · intro st _ h; cases h
  · intro st c rest o st' hc hp ih; exact ih
  · intro st c rest e' st' hc hp hg h; cases h; exact guardedCall_escapes hg
  · intro st c rest st1 o st' hc hp hg ih; exact ih

theorem callLoop_empty {u : Nat} {f i : Bool} {st : St} (h : (callLoop u f i st).1 = none) :
    (callLoop u f i st).2.cleanups u = [] := by
  revert h
  apply callLoop_ind (P := fun _ o st' => o = none → st'.cleanups u = [])
  · intro st h _; exact h
  · intro st c rest o st' hc hp ih; exact ih
  · intro st c rest e' st' hc hp hg h; cases h
  · intro st c rest st1 o st' hc hp hg ih; exact ih

end Slash.Cleanup
