import Verif.Model.CustomHooks

/-!
# C170: hooks defined by users
-/
namespace Slash.CHook

/-- **C170**: adding a hook whose name is in use fails and changes nothing; otherwise there is a new hook of this name, without handlers,
which can be called as an attribute, and everything else is as before. -/
theorem C170_add (n : Name) (s : St) :
    (∀ h, s.hooks n = some h → add n s = (.error .used, s)) ∧
    (s.hooks n = none → ∃ i, (add n s).1 = .ok i ∧ (add n s).2.hooks n = some { id := i } ∧ call n (add n s).2 = some [] ∧
      ∀ m, m ≠ n → (add n s).2.hooks m = s.hooks m ∧ (add n s).2.attrs m = s.attrs m) := by
  refine ⟨fun h hh => by simp [add, define, gossipDefine, hh], fun hn => ⟨s.next, ?_⟩⟩
  simp [add, define, gossipDefine, hn, call]
  intro m hm
  simp [hm]

/-- **C170**: ensuring a hook never fails, and a hook of the name is there then. If it was there before, nothing is changed: it is the same
hook, with its handlers. Otherwise it is added. -/
theorem C170_ensure (n : Name) (s : St) :
    ∃ i h, (ensure n s).1 = .ok i ∧ (ensure n s).2.hooks n = some h ∧ h.id = i ∧
      (∀ h', s.hooks n = some h' → h = h' ∧ (ensure n s).2 = s) ∧
      (s.hooks n = none → ensure n s = add n s) := by
  cases hn : s.hooks n with
  | none => exact ⟨s.next, { id := s.next }, by simp [ensure, getByName, define, gossipDefine, hn, add]⟩
  | some h => exact ⟨h.id, h, by simp [ensure, getByName, hn]⟩

/-- **C170**: a hook can be registered for exactly if it is defined; handlers are kept in the order of registration, and no other hook gets
them. -/
theorem C170_register (n : Name) (f : Nat) (s : St) :
    (s.hooks n = none → register n f s = (.error .lookup, s)) ∧
    (∀ h, s.hooks n = some h → (register n f s).1 = .ok () ∧ (register n f s).2.hooks n = some { h with handlers := h.handlers ++ [f] } ∧
      ∀ m, (m ≠ n → (register n f s).2.hooks m = s.hooks m) ∧ (register n f s).2.attrs m = s.attrs m) := by
  refine ⟨fun hn => by simp [register, hn], fun h hh => ?_⟩
  simp [register, hh]
  intro m hm
  simp [hm]

/-- **C170** (partial): removing a hook that can be called as an attribute removes it, with its handlers, and its attribute, and nothing
else; removing a name that is no hook fails and changes nothing. Missing: hooks without attributes, see `C170_remove_violated`. -/
theorem C170_remove_partial (n : Name) (s : St) :
    (s.hooks n = none → remove n s = (.error .lookup, s)) ∧
    (∀ h a, s.hooks n = some h → s.attrs n = some a → (remove n s).1 = .ok () ∧ (remove n s).2.hooks n = none ∧ (remove n s).2.attrs n = none ∧
      ∀ m, m ≠ n → (remove n s).2.hooks m = s.hooks m ∧ (remove n s).2.attrs m = s.attrs m) := by
  refine ⟨fun hn => by simp [remove, hn], fun h a hh ha => ?_⟩
  simp [remove, undefine, hh, ha]
  intro m hm
  simp [hm]

/-- What holds of the module as long as hooks are defined by it only, and none under a name of its own. -/
structure Inv (own : List Name) (s : St) : Prop where
  attr : ∀ n, n ∉ own → s.attrs n = (s.hooks n).map fun h => .hook h.id
  own : ∀ n, n ∈ own → s.attrs n = some .own ∧ s.hooks n = none
  fresh : ∀ n h, s.hooks n = some h → h.id < s.next
  inj : ∀ n m h h', s.hooks n = some h → s.hooks m = some h' → h.id = h'.id → n = m

/-- The name an operation is about, if it is one that defines hooks under it. -/
def Op.defines : Op → Option Name
  | .add n => some n
  | .ensure n => some n
  | _ => none

/-- An operation of the module, not of `gossip` itself, that does not use the name of something else in the module. -/
def Op.Fine (own : List Name) (o : Op) : Prop := (∀ n, o.defines = some n → n ∉ own) ∧ ∀ n, o ≠ .gossip n

theorem Inv.define {own : List Name} {s : St} (hi : Inv own s) (n : Name) (hn : n ∉ own) : Inv own (define n s).2 := by
  cases hh : s.hooks n with
  | some h => simpa [CHook.define, gossipDefine, hh] using hi
  | none =>
    simp only [CHook.define, gossipDefine, hh]
    refine ⟨?_, ?_, ?_, ?_⟩
    · intro m hm
      by_cases h : m = n
      · simp [h]
      · simp [h, hi.attr m hm]
    · intro m hm
      have h : m ≠ n := fun h => hn (h ▸ hm)
      simp [h, hi.own m hm]
    · intro m h hm
      by_cases he : m = n
      · simp [he] at hm; subst hm; simp
      · simp [he] at hm; have := hi.fresh m h hm; simp; omega
    · intro m k h h' hm hk e
      by_cases he : m = n
      · by_cases he' : k = n
        · rw [he, he']
        · simp [he] at hm; simp [he'] at hk; subst hm
          have := hi.fresh k h' hk; simp at e; omega
      · by_cases he' : k = n
        · simp [he] at hm; simp [he'] at hk; subst hk
          have := hi.fresh m h hm; simp at e; omega
        · simp [he] at hm; simp [he'] at hk
          exact hi.inj m k h h' hm hk e

theorem Inv.step {own : List Name} {s : St} (hi : Inv own s) (o : Op) (ho : o.Fine own) : Inv own (step s o) := by
  cases o with
  | add n => exact hi.define n (ho.1 n rfl)
  | ensure n =>
    show Inv own (CHook.ensure n s).2
    cases hh : s.hooks n with
    | some h => simpa [CHook.ensure, getByName, hh] using hi
    | none =>
      have : (CHook.ensure n s) = CHook.define n s := by simp [CHook.ensure, getByName, hh]
      rw [this]
      exact hi.define n (ho.1 n rfl)
  | remove n =>
    show Inv own (CHook.remove n s).2
    cases hh : s.hooks n with
    | none => simpa [CHook.remove, hh] using hi
    | some h =>
      have hno : n ∉ own := fun hm => by rw [(hi.own n hm).2] at hh; simp at hh
      have ha : s.attrs n = some (.hook h.id) := by rw [hi.attr n hno, hh]; rfl
      simp only [CHook.remove, hh, ha, undefine]
      refine ⟨?_, ?_, ?_, ?_⟩
      · intro m hm
        by_cases e : m = n
        · simp [e]
        · simp [e, hi.attr m hm]
      · intro m hm
        have e : m ≠ n := fun e => hno (e ▸ hm)
        simp [e, hi.own m hm]
      · intro m h' hm
        by_cases e : m = n
        · simp [e] at hm
        · simp [e] at hm; exact hi.fresh m h' hm
      · intro m k h1 h2 hm hk e
        by_cases e1 : m = n
        · simp [e1] at hm
        · by_cases e2 : k = n
          · simp [e2] at hk
          · simp [e1] at hm; simp [e2] at hk
            exact hi.inj m k h1 h2 hm hk e
  | register n f =>
    show Inv own (CHook.register n f s).2
    cases hh : s.hooks n with
    | none => simpa [CHook.register, hh] using hi
    | some h =>
      simp only [CHook.register, hh]
      refine ⟨?_, ?_, ?_, ?_⟩
      · intro m hm
        by_cases e : m = n
        · subst e; simp [hi.attr m hm, hh]
        · simp [e, hi.attr m hm]
      · intro m hm
        have e : m ≠ n := fun e => by rw [e] at hm; rw [(hi.own n hm).2] at hh; simp at hh
        simp [e, hi.own m hm]
      · intro m h' hm
        by_cases e : m = n
        · simp [e] at hm; subst hm; exact hi.fresh n h hh
        · simp [e] at hm; exact hi.fresh m h' hm
      · intro m k h1 h2 hm hk e
        by_cases e1 : m = n
        · by_cases e2 : k = n
          · rw [e1, e2]
          · simp [e1] at hm; simp [e2] at hk; subst hm
            rw [e1]; exact hi.inj n k h h2 hh hk e
        · by_cases e2 : k = n
          · simp [e1] at hm; simp [e2] at hk; subst hk
            rw [e2]; exact hi.inj m n h1 h hm hh e
          · simp [e1] at hm; simp [e2] at hk
            exact hi.inj m k h1 h2 hm hk e
  | gossip n => exact absurd rfl (ho.2 n)

theorem Inv.run {own : List Name} (ops : List Op) {s : St} (hi : Inv own s) (ho : ∀ o ∈ ops, o.Fine own) : Inv own (ops.foldl CHook.step s) := by
  induction ops generalizing s with
  | nil => exact hi
  | cons o ops ih => exact ih (hi.step o (ho o List.mem_cons_self)) fun o' h => ho o' (List.mem_cons_of_mem _ h)

theorem Inv.imported (own builtin : List Name) (hb : ∀ n ∈ builtin, n ∉ own) : Inv own (imported own builtin) := by
  have key : ∀ (l : List Name) (s : St), Inv own s → (∀ n ∈ l, n ∉ own) → Inv own (l.foldl (fun s n => (CHook.define n s).2) s) := by
    intro l
    induction l with
    | nil => intro s h _; exact h
    | cons a l ih => intro s h hl; exact ih _ (h.define a (hl a List.mem_cons_self)) fun n hn => hl n (List.mem_cons_of_mem _ hn)
  exact key builtin _ ⟨fun n hn => by simp [hn], fun n hn => by simp [hn], by simp, by simp⟩ hb

/-- **C170** (partial): whatever hooks are added, ensured, removed and registered for, one after the other, and whichever of these fail: each
hook that is defined can be called as an attribute of the module, which calls exactly the handlers registered for it; no attribute is
left of hooks that were removed; different names stand for different hooks; and what the module has of its own stays. Missing: names of
the module's own (`C170_own_violated`), and hooks defined with `gossip` (`C170_ensure_attr_violated`). -/
theorem C170_called_partial (own builtin : List Name) (hb : ∀ n ∈ builtin, n ∉ own) (ops : List Op) (ho : ∀ o ∈ ops, o.Fine own) :
    let s := ops.foldl step (imported own builtin)
    (∀ n, call n s = (s.hooks n).map (·.handlers)) ∧
    (∀ n, n ∉ own → s.hooks n = none → s.attrs n = none) ∧
    (∀ n ∈ own, s.attrs n = some .own) ∧
    (∀ n m h h', s.hooks n = some h → s.hooks m = some h' → h.id = h'.id → n = m) := by
  intro s
  have hi : Inv own s := (Inv.imported own builtin hb).run ops ho
  refine ⟨fun n => ?_, fun n hn h => ?_, fun n hn => (hi.own n hn).1, hi.inj⟩
  · by_cases hn : n ∈ own
    · simp [call, (hi.own n hn).1, (hi.own n hn).2]
    · unfold call
      rw [hi.attr n hn]
      cases hh : s.hooks n <;> simp
  · rw [hi.attr n hn, h]; rfl

/-- **C170**: a hook removed and added again starts without handlers. -/
theorem C170_again (n : Name) (s : St) (h : Hook) (a : Attr) (hh : s.hooks n = some h) (ha : s.attrs n = some a) :
    call n (add n (remove n s).2).2 = some [] := by
  obtain ⟨-, h1, -⟩ := (C170_remove_partial n s).2 h a hh ha
  obtain ⟨i, -, -, h2, -⟩ := (C170_add n (remove n s).2).2 h1
  exact h2

/-- The module with `register` of its own and one hook. -/
def exSt : St := imported ["register".toList] ["test_start".toList]

example : call "mine".toList ([.add "mine".toList, .register "mine".toList 4, .ensure "mine".toList, .add "mine".toList, .register "mine".toList 5].foldl step exSt) = some [4, 5] := by
  decide
example : call "mine".toList ([.add "mine".toList, .register "mine".toList 4, .remove "mine".toList].foldl step exSt) = none := by decide
example : call "mine".toList ([.add "mine".toList, .register "mine".toList 4, .remove "mine".toList, .add "mine".toList].foldl step exSt) = some [] := by decide
example : call "test_start".toList ([.register "test_start".toList 1, .add "test_start".toList].foldl step exSt) = some [1] := by decide

/-- **C170** (violated): a hook with a name of the module's own takes the place of it: `slash.hooks.register` is no function then; and it is gone
for good after the hook was removed. -/
theorem C170_own_violated :
    exSt.attrs "register".toList = some .own ∧ (step exSt (.add "register".toList)).attrs "register".toList = some (.hook 1) ∧
    (step (step exSt (.add "register".toList)) (.remove "register".toList)).attrs "register".toList = none := by decide

/-- **C170** (violated): a hook defined with `gossip` is accepted by `ensure_custom_hook`, but is not an attribute. -/
theorem C170_ensure_attr_violated :
    (step (step exSt (.gossip "g".toList)) (.ensure "g".toList)).hooks "g".toList = some { id := 1 } ∧
    call "g".toList (step (step exSt (.gossip "g".toList)) (.ensure "g".toList)) = none := by decide

/-- **C170** (violated): removing such a hook removes it, and raises an exception nevertheless. -/
theorem C170_remove_violated :
    (match (remove "g".toList (step exSt (.gossip "g".toList))).1 with | .error .key => true | _ => false) = true ∧
    (remove "g".toList (step exSt (.gossip "g".toList))).2.hooks "g".toList = none := by decide

/-- **C170** (violated): `get_hook_by_name` of a name that is no hook raises, though `None` is promised. -/
theorem C170_get_violated : (match getByName "nope".toList exSt with | .error .lookup => true | _ => false) = true := by decide

/-- **C170** (partial): a hook that is defined is found by its name. Missing: other names, see `C170_get_violated`. -/
theorem C170_get_partial (n : Name) (s : St) (h : Hook) (hh : s.hooks n = some h) : getByName n s = .ok h.id := by
  simp [getByName, hh]

example : getByName "test_start".toList exSt = .ok 0 := by rfl

end Slash.CHook
