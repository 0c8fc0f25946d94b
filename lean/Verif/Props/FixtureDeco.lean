import Verif.Model.FixtureDeco
/-!
# Ways to write and use fixtures: properties C96, C97
-/
namespace Slash.FixDeco

/-! ## C96: generators as fixtures -/

/-- the visible steps -/
def effs : List GStep → List Ev
  | [] => []
  | .eff t :: l => .eff t :: effs l
  | _ :: l => effs l

/-- the cleanups added -/
def adds : List GStep → List Cl
  | [] => []
  | .add c :: l => c :: adds l
  | _ :: l => adds l

/-- no `yield` -/
def Straight (l : List GStep) : Prop := ∀ v, .yield v ∉ l

/-- the cleanups called: up to the first one that raises -/
def upToRaise : List Cl → List Ev
  | [] => []
  | c :: cs => .cleanup c.tag :: (if c.raises.isSome then [] else upToRaise cs)

/-- what they raise -/
def raised (cs : List Cl) : Option Kind := cs.findSome? (·.raises)

theorem next_straight (r : Option Kind) (l : List GStep) (h : Straight l) (st : St) :
    next r l st = (match r with | some k => .raised k | none => .stopped,
      { cleanups := st.cleanups ++ (adds l).map .user, trace := st.trace ++ effs l }) := by
  induction l generalizing st with
  | nil => cases r <;> simp [next, adds, effs]
  | cons x l ih =>
    have h' : Straight l := fun v hv => h v (by simp [hv])
    cases x with
    | eff t => cases r <;> simp [next, ih h', adds, effs]
    | add c => cases r <;> simp [next, ih h', adds, effs]
    | yield v => exact absurd (by simp) (h v)

theorem next_yield (r : Option Kind) (l : List GStep) (h : Straight l) (v : Nat) (l' : List GStep) (st : St) :
    next r (l ++ .yield v :: l') st = (.yielded v { steps := l', raises := r },
      { cleanups := st.cleanups ++ (adds l).map .user, trace := st.trace ++ effs l }) := by
  induction l generalizing st with
  | nil => simp [next, adds, effs]
  | cons x l ih =>
    have h' : Straight l := fun v hv => h v (by simp [hv])
    cases x with
    | eff t => simp [next, ih h', adds, effs]
    | add c => simp [next, ih h', adds, effs]
    | yield v => exact absurd (by simp) (h v)

theorem doCleanups_snoc (fuel : Nat) (es : List Entry) (e : Entry) (t : List Ev) :
    doCleanups (fuel + 1) { cleanups := es ++ [e], trace := t } =
      match callEntry e { cleanups := es, trace := t } with
      | (some k, st) => (some k, st)
      | (none, st) => doCleanups fuel st := by
  conv => lhs; unfold doCleanups
  simp only [List.getLast?_concat, List.dropLast_concat]
  generalize callEntry e { cleanups := es, trace := t } = r
  rcases r with ⟨_ | _, _⟩ <;> rfl

theorem doCleanups_nil (fuel : Nat) (t : List Ev) : doCleanups fuel { cleanups := [], trace := t } = (none, { cleanups := [], trace := t }) := by
  cases fuel <;> simp [doCleanups]

/-- calling cleanups of the user, the last one first -/
theorem doCleanups_user (es : List Entry) (cs : List Cl) (fuel : Nat) (hf : cs.length ≤ fuel) (t : List Ev) :
    (raised cs = none → doCleanups fuel { cleanups := es ++ (cs.reverse).map .user, trace := t } = doCleanups (fuel - cs.length) { cleanups := es, trace := t ++ upToRaise cs }) ∧
    (∀ k, raised cs = some k → (doCleanups fuel { cleanups := es ++ (cs.reverse).map .user, trace := t }).1 = some k ∧
      (doCleanups fuel { cleanups := es ++ (cs.reverse).map .user, trace := t }).2.trace = t ++ upToRaise cs) := by
  induction cs generalizing fuel t with
  | nil => simp [upToRaise, raised]
  | cons c cs ih =>
    cases fuel with
    | zero => simp at hf
    | succ fuel =>
      simp only [List.length_cons, Nat.add_le_add_iff_right] at hf
      simp only [List.reverse_cons, List.map_append, List.map_cons, List.map_nil, ← List.append_assoc]
      rw [doCleanups_snoc]
      simp only [callEntry]
      cases hr : c.raises with
      | some k =>
        simp only [raised, List.findSome?_cons, hr, upToRaise, Option.isSome_some, if_true]
        simp
      | none =>
        simp only [raised, List.findSome?_cons, hr, upToRaise, Option.isSome_none, Bool.false_eq_true, if_false]
        obtain ⟨h1, h2⟩ := ih fuel hf (t ++ [.cleanup c.tag])
        simp only [raised] at h1 h2
        refine ⟨fun h => ?_, fun k h => ?_⟩
        · rw [h1 h]; simp
        · obtain ⟨h3, h4⟩ := h2 k h; exact ⟨h3, by rw [h4]; simp⟩

/-- C96: a fixture written as a generator that yields once. When it is needed, exactly the part before the `yield` is run,
and its value is the value yielded. When it is torn down, the part after the `yield` is run, once and first of all, whatever
cleanups the first part added; then the cleanups added by the second part, the last one first; then those of the first part,
the last one first; up to one that raises. -/
theorem C96_yield_fixture (pre post : List GStep) (v : Nat) (hpre : Straight pre) (hpost : Straight post) (fuel : Nat)
    (hf : (adds pre).length + (adds post).length < fuel) :
    ∃ st, newFunc { steps := pre ++ .yield v :: post } {} = (.ok v, st) ∧ st.trace = effs pre ∧
      (doCleanups fuel st).2.trace = effs pre ++ effs post ++ upToRaise ((adds post).reverse ++ (adds pre).reverse) ∧
      (doCleanups fuel st).1 = raised ((adds post).reverse ++ (adds pre).reverse) := by
  cases fuel with
  | zero => simp at hf
  | succ fuel =>
    refine ⟨{ cleanups := (adds pre).map .user ++ [.gen { steps := post }], trace := effs pre }, ?_, rfl, ?_⟩
    · unfold newFunc; rw [next_yield none pre hpre]; simp
    · rw [doCleanups_snoc]
      simp only [callEntry]
      rw [next_straight none post hpost]
      simp only
      have e : (adds pre).map Entry.user ++ (adds post).map .user = [] ++ (((adds post).reverse ++ (adds pre).reverse).reverse).map .user := by simp
      rw [e]
      obtain ⟨h1, h2⟩ := doCleanups_user [] ((adds post).reverse ++ (adds pre).reverse) fuel (by simp; omega) (effs pre ++ effs post)
      cases hr : raised ((adds post).reverse ++ (adds pre).reverse) with
      | none => rw [h1 hr, doCleanups_nil]; simp
      | some k => obtain ⟨h3, h4⟩ := h2 k hr; exact ⟨h4, h3⟩

example : ∃ st, newFunc { steps := [.eff 1, .add ⟨10, none⟩, .yield 7, .eff 2, .add ⟨11, none⟩, .eff 3] } {} = (.ok 7, st) ∧ st.trace = [.eff 1] ∧
    doCleanups 9 st = (none, { cleanups := [], trace := [.eff 1, .eff 2, .eff 3, .cleanup 11, .cleanup 10] }) :=
  ⟨_, rfl, by decide, by decide⟩

/-- C96, second part raises: if the part after the `yield` raises, that exception leaves the teardown, and no cleanup is called. -/
theorem C96_raise_after (pre post : List GStep) (v : Nat) (k : Kind) (hpre : Straight pre) (hpost : Straight post) (fuel : Nat) :
    ∃ st, newFunc { steps := pre ++ .yield v :: post, raises := some k } {} = (.ok v, st) ∧
      (doCleanups (fuel + 1) st).1 = some k ∧ (doCleanups (fuel + 1) st).2.trace = effs pre ++ effs post := by
  refine ⟨{ cleanups := (adds pre).map .user ++ [.gen { steps := post, raises := some k }], trace := effs pre }, ?_, ?_⟩
  · unfold newFunc; rw [next_yield (some k) pre hpre]; simp
  · rw [doCleanups_snoc]
    simp only [callEntry]
    rw [next_straight (some k) post hpost]
    simp

example : ∃ st, newFunc { steps := [.add ⟨10, none⟩, .yield 7, .eff 2], raises := some .failure } {} = (.ok 7, st) ∧
    (doCleanups 9 st).1 = some .failure ∧ (doCleanups 9 st).2.trace = [.eff 2] := ⟨_, rfl, by decide, by decide⟩

/-- C96, first part raises or does not yield: the fixture function raises (`StopIteration` counts as an error), and only the cleanups
that were added are called. -/
theorem C96_no_yield (pre : List GStep) (r : Option Kind) (hpre : Straight pre) (fuel : Nat) (hf : (adds pre).length ≤ fuel) :
    ∃ st, newFunc { steps := pre, raises := r } {} = (.error (r.getD .error), st) ∧ st.trace = effs pre ∧
      (doCleanups fuel st).2.trace = effs pre ++ upToRaise (adds pre).reverse ∧ (doCleanups fuel st).1 = raised (adds pre).reverse := by
  refine ⟨{ cleanups := (adds pre).map .user, trace := effs pre }, ?_, rfl, ?_⟩
  · unfold newFunc
    rw [next_straight r pre hpre]
    cases r <;> simp
  · have e : (adds pre).map Entry.user = [] ++ (((adds pre).reverse).reverse).map .user := by simp
    rw [e]
    obtain ⟨h1, h2⟩ := doCleanups_user [] (adds pre).reverse fuel (by simpa using hf) (effs pre)
    cases hr : raised (adds pre).reverse with
    | none => rw [h1 hr, doCleanups_nil]; simp
    | some k => obtain ⟨h3, h4⟩ := h2 k hr; exact ⟨h4, h3⟩

example : ∃ st, newFunc { steps := [.eff 1, .add ⟨10, none⟩, .add ⟨11, none⟩, .eff 2], raises := some .skip } {} = (.error .skip, st) ∧
    doCleanups 2 st = (none, { cleanups := [], trace := [.eff 1, .eff 2, .cleanup 11, .cleanup 10] }) := ⟨_, rfl, by decide⟩

/-- C96, several values: a generator that yields again in its teardown is an error, the code after the second `yield` is never
run, and no other cleanup is called. -/
theorem C96_second_yield (pre post rest : List GStep) (v w : Nat) (r : Option Kind) (hpre : Straight pre) (hpost : Straight post) (fuel : Nat) :
    ∃ st, newFunc { steps := pre ++ .yield v :: (post ++ .yield w :: rest), raises := r } {} = (.ok v, st) ∧
      (doCleanups (fuel + 1) st).1 = some .error ∧ (doCleanups (fuel + 1) st).2.trace = effs pre ++ effs post := by
  refine ⟨{ cleanups := (adds pre).map .user ++ [.gen { steps := post ++ .yield w :: rest, raises := r }], trace := effs pre }, ?_, ?_⟩
  · unfold newFunc; rw [next_yield r pre hpre]; simp
  · rw [doCleanups_snoc]
    simp only [callEntry]
    rw [next_yield r post hpost]
    simp

example : ∃ st, newFunc { steps := [.yield 7, .eff 2, .yield 8, .eff 3] } {} = (.ok 7, st) ∧
    (doCleanups 9 st).1 = some .error ∧ (doCleanups 9 st).2.trace = [.eff 2] := ⟨_, rfl, by decide, by decide⟩

/-- Where the code violates the expectation that all cleanups of a fixture are called: those added before the `yield` are lost
if the part after it raises. -/
theorem C96_lost_cleanup_violated :
    ∃ st, newFunc { steps := [.add ⟨10, none⟩, .yield 7], raises := some .error } {} = (.ok 7, st) ∧
      doCleanups 9 st = (some .error, { cleanups := [.user ⟨10, none⟩], trace := [] }) := ⟨_, rfl, by decide⟩

/-! ## C97: `use_fixtures` -/

theorem decorate_fresh (ds : List (Nat × Nat)) (h : Heap) (hn : (ds.map (·.1)).Nodup) (hfree : ∀ d ∈ ds, ∀ g, h.attr g ≠ some d.1)
    (hinj : ∀ g g' l, h.attr g = some l → h.attr g' = some l → g = g') (f : Nat) :
    extraFixtures f (decorate ds h) = extraFixtures f h ++ (ds.filter (·.2 == f)).flatMap (fun d => h.lists d.1) := by
  induction ds generalizing h with
  | nil => simp [decorate]
  | cons d ds ih =>
    rcases d with ⟨l, g⟩
    simp only [List.map_cons, List.nodup_cons] at hn
    have hl : ∀ d ∈ ds, d.1 ≠ l := fun d hd e => hn.1 (e ▸ List.mem_map.2 ⟨d, hd, rfl⟩)
    simp only [decorate]
    cases ha : h.attr g with
    | none =>
      have e : useFixtures l g h = { h with attr := fun x => if x = g then some l else h.attr x } := by simp [useFixtures, ha]
      rw [e, ih _ hn.2]
      · have e1 : extraFixtures f { h with attr := fun x => if x = g then some l else h.attr x } =
            extraFixtures f h ++ (if g = f then h.lists l else []) := by
          unfold extraFixtures
          by_cases hfg : g = f
          · subst hfg; simp [ha]
          · have : f ≠ g := fun e => hfg e.symm
            simp [hfg, this]
        rw [e1]
        by_cases hfg : g = f <;> simp [hfg]
      · intro d hd x
        simp only
        split
        · simp only [ne_eq, Option.some.injEq]; exact fun e => hl d hd e.symm
        · exact hfree d (by simp [hd]) x
      · intro x x' m h1 h2
        simp only at h1 h2
        split at h1 <;> split at h2
        · rename_i e1 e2; rw [e1, e2]
        · simp only [Option.some.injEq] at h1; subst h1; exact absurd h2 (hfree (l, g) (by simp) x')
        · simp only [Option.some.injEq] at h2; subst h2; exact absurd h1 (hfree (l, g) (by simp) x)
        · exact hinj x x' m h1 h2
    | some m =>
      have e : useFixtures l g h = { h with lists := fun i => if i = m then h.lists m ++ h.lists l else h.lists i } := by simp [useFixtures, ha]
      rw [e, ih _ hn.2]
      · have e1 : extraFixtures f { h with lists := fun i => if i = m then h.lists m ++ h.lists l else h.lists i } =
            extraFixtures f h ++ (if g = f then h.lists l else []) := by
          unfold extraFixtures
          by_cases hfg : g = f
          · subst hfg; simp [ha]
          · simp only [hfg, if_false, List.append_nil]
            cases hf' : h.attr f with
            | none => rfl
            | some m' =>
              have : m' ≠ m := fun e => hfg (hinj g f m ha (e ▸ hf'))
              simp [this]
        rw [e1]
        have e2 : (ds.filter (·.2 == f)).flatMap (fun d => if d.1 = m then h.lists m ++ h.lists l else h.lists d.1) =
            (ds.filter (·.2 == f)).flatMap (fun d => h.lists d.1) := by
          have : ∀ d ∈ ds.filter (·.2 == f), d.1 ≠ m := by
            intro d hd e
            exact hfree d (by simp [(List.mem_filter.1 hd).1]) g (e ▸ ha)
          generalize ds.filter (·.2 == f) = es at this
          induction es with
          | nil => rfl
          | cons d es ih2 =>
            simp only [List.flatMap_cons]
            rw [ih2 (fun x hx => this x (by simp [hx])), if_neg (this d (by simp))]
        simp only
        rw [e2]
        by_cases hfg : g = f <;> simp [hfg]
      · intro d hd x
        exact hfree d (by simp [hd]) x
      · exact hinj

/-- C97: whatever functions are decorated with `use_fixtures`, in whatever order, if each decorator is given a list of its own:
the fixtures a function uses are the names given in its own decorators, those of the decorator applied first first. If a list
is used in several decorators: `C97_shared_list_violated`. -/
theorem C97_use_fixtures_partial (lists : Nat → List Nat) (ds : List (Nat × Nat)) (hn : (ds.map (·.1)).Nodup) (f : Nat) :
    extraFixtures f (decorate ds { lists := lists }) = (ds.filter (·.2 == f)).flatMap (fun d => lists d.1) := by
  rw [decorate_fresh ds { lists := lists } hn (by simp) (by simp) f]
  rfl

example : extraFixtures 1 (decorate [(0, 1), (1, 2), (2, 1)] { lists := fun l => [10 * l, 10 * l + 1] }) = [0, 1, 20, 21] := by decide

/-- Where the code violates C97: a list object given to the decorators of two functions, one of which has another decorator, is
extended, so the other function uses a fixture named in none of its decorators. -/
theorem C97_shared_list_violated :
    extraFixtures 2 (decorate [(0, 1), (1, 1), (0, 2)] { lists := fun l => [10 * l] }) = [0, 10] := by decide

end Slash.FixDeco
