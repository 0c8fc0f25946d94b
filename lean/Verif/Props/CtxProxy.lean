import Verif.Model.CtxProxy
import Verif.Props.Ctx
/-!
# C156: `slash.g`, and the attributes of the context
-/
namespace Slash.Ctx

/-- The names of the two storages. -/
def storage (p : String) : Prop := p = "g" ∨ p = "internal_globals"

/-- What happens from the start of a context to its end, other contexts being started and ended meanwhile. Contexts keep their storages, and
only storages are written to. -/
inductive Whole : List POp → Prop
  | nil : Whole []
  | set (a v) {ops} : ¬ storage a → Whole ops → Whole (.set a v :: ops)
  | write (p attr v) {ops} : storage p → Whole ops → Whole (.write p attr v :: ops)
  | inner {ops ops'} : Whole ops → Whole ops' → Whole (.push :: ops ++ .pop :: ops')

/-- The top is a context with these storages, and the heap has them and none beyond. -/
structure Top (s : PSt) (g ig : Nat) (below : St) : Prop where
  top : ∃ f, s.st = .ctx f :: below ∧ f "g" = some g ∧ f "internal_globals" = some ig
  low : 0 < g ∧ g < s.next ∧ 0 < ig ∧ ig < s.next

theorem prun_append (a b : List POp) (s : PSt) : prun (a ++ b) s = prun b (prun a s) := List.foldl_append ..

/-- The last value written to an attribute of a storage in this very context, what is done in inner ones left out. -/
def lastWrite (p attr : String) : Nat → List POp → Option Nat → Option Nat
  | _, [], r => r
  | 0, .write p' attr' v :: ops, r => lastWrite p attr 0 ops (if p' = p ∧ attr' = attr then some v else r)
  | d, .push :: ops, r => lastWrite p attr (d + 1) ops r
  | d, .pop :: ops, r => lastWrite p attr (d - 1) ops r
  | d, _ :: ops, r => lastWrite p attr d ops r

theorem lastWrite_inner (p attr : String) (ops : List POp) (h : Whole ops) (d : Nat) (rest : List POp) (r : Option Nat) :
    lastWrite p attr (d + 1) (ops ++ rest) r = lastWrite p attr (d + 1) rest r := by
  induction h generalizing d rest with
  | nil => rfl
  | set a v _ _ ih => simp only [List.cons_append, lastWrite]; exact ih d rest
  | write p' a v _ _ ih => simp only [List.cons_append, lastWrite]; exact ih d rest
  | inner _ _ ih1 ih2 =>
    simp only [List.cons_append, List.append_assoc, lastWrite]
    rw [ih1 (d + 1)]
    simp only [lastWrite, Nat.add_sub_cancel]
    exact ih2 d rest

theorem whole_run (ops : List POp) (h : Whole ops) : ∀ (s : PSt) (g ig : Nat) (below : St), below ≠ [] → Top s g ig below → g ≠ ig →
    Top (prun ops s) g ig below ∧ s.next ≤ (prun ops s).next ∧
    (∀ i a, i < s.next → i ≠ g → i ≠ ig → (prun ops s).heap i a = s.heap i a) ∧
    (∀ a, (prun ops s).heap g a = lastWrite "g" a 0 ops (s.heap g a)) ∧
    (∀ a, (prun ops s).heap ig a = lastWrite "internal_globals" a 0 ops (s.heap ig a)) := by
  induction h with
  | nil => intro s g ig below _ ht _; exact ⟨ht, Nat.le_refl _, fun _ _ _ _ _ => rfl, fun _ => rfl, fun _ => rfl⟩
  | set a v ha _ ih =>
    intro s g ig below hb ht hne
    have ht' : Top (pstep s (.set a v)) g ig below := by
      obtain ⟨⟨f, h1, h2, h3⟩, h4⟩ := ht
      refine ⟨⟨fun b => if b = a then some v else f b, ?_, ?_, ?_⟩, h4⟩
      · simp [pstep, setAttr, h1]
      · exact (if_neg (fun h : "g" = a => ha (.inl h.symm))).trans h2
      · exact (if_neg (fun h : "internal_globals" = a => ha (.inr h.symm))).trans h3
    exact ih (pstep s (.set a v)) g ig below hb ht' hne
  | write p attr v hp _ ih =>
    intro s g ig below hb ht hne
    obtain ⟨⟨f, h1, h2, h3⟩, h4⟩ := ht
    have hget : ∃ i, getAttr s.st p = some (i + 1) ∧ i + 1 = (if p = "g" then g else ig) := by
      rcases hp with rfl | rfl
      · exact ⟨g - 1, by simp only [getAttr, h1, h2]; congr 1; omega, by simp; omega⟩
      · exact ⟨ig - 1, by simp only [getAttr, h1, h3]; congr 1; omega, by simp; omega⟩
    obtain ⟨i, hi, hi'⟩ := hget
    have hst : pstep s (.write p attr v) = { s with heap := fun j => if j = i + 1 then fun a => if a = attr then some v else s.heap j a else s.heap j } := by
      simp only [pstep, PSt.write, hi]
    have ht' : Top (pstep s (.write p attr v)) g ig below := by
      rw [hst]; exact ⟨⟨f, h1, h2, h3⟩, h4⟩
    obtain ⟨k1, k2, k3, k4, k5⟩ := ih (pstep s (.write p attr v)) g ig below hb ht' hne
    refine ⟨k1, Nat.le_trans (Nat.le_of_eq (by rw [hst])) k2, ?_, ?_, ?_⟩
    · intro j a hj hg hig
      have := k3 j a (by rw [hst]; exact hj) hg hig
      refine this.trans ?_
      rw [hst]
      have : j ≠ i + 1 := by
        rw [hi']
        split <;> assumption
      simp only [if_neg this]
    · intro a
      refine (k4 a).trans ?_
      simp only [lastWrite]
      congr 1
      rw [hst]
      rcases hp with rfl | rfl
      · simp only [if_true] at hi'
        simp only [hi']
        by_cases ha : a = attr
        · simp [ha]
        · simp [ha, Ne.symm ha]
      · have h5 : ("internal_globals" = "g") = False := by decide
        simp only [h5, if_false] at hi'
        simp only [hi', if_neg hne]
        simp
    · intro a
      refine (k5 a).trans ?_
      simp only [lastWrite]
      congr 1
      rw [hst]
      rcases hp with rfl | rfl
      · simp only [if_true] at hi'
        simp only [hi', if_neg (Ne.symm hne)]
        simp
      · have h5 : ("internal_globals" = "g") = False := by decide
        simp only [h5, if_false] at hi'
        simp only [hi']
        by_cases ha : a = attr
        · simp [ha]
        · simp [ha, Ne.symm ha]
  | @inner ops ops' hw _ ih1 ih2 =>
    intro s g ig below hb ht hne
    obtain ⟨⟨f, h1, h2, h3⟩, h4⟩ := ht
    have hst : s.st ≠ [] := by rw [h1]; simp
    have htp : Top s.push s.next (s.next + 1) s.st := by
      refine ⟨⟨newAttrs s.next (s.next + 1), rfl, by simp [newAttrs], by simp [newAttrs]⟩, ?_⟩
      show 0 < s.next ∧ s.next < s.next + 2 ∧ 0 < s.next + 1 ∧ s.next + 1 < s.next + 2
      omega
    obtain ⟨k1, k2, k3, _, _⟩ := ih1 s.push s.next (s.next + 1) s.st hst htp (by omega)
    have hn : s.next ≤ (prun ops s.push).next := by
      have : s.push.next = s.next + 2 := rfl
      omega
    have hheap : ∀ i a, i < s.next → (prun ops s.push).heap i a = s.heap i a := by
      intro i a hi
      rw [k3 i a (by show i < s.next + 2; omega) (by omega) (by omega)]
      show (if i = s.next ∨ i = s.next + 1 then (fun _ => none) else s.heap i) a = s.heap i a
      rw [if_neg (by omega)]
    have hpop : (prun ops s.push).pop.st = s.st := by
      obtain ⟨f', h5, _⟩ := k1.top
      simp only [PSt.pop, h5]
      cases hs : s.st with
      | nil => exact absurd hs hst
      | cons x l => rfl
    have ht2 : Top (prun ops s.push).pop g ig below := by
      refine ⟨⟨f, by rw [hpop]; exact h1, h2, h3⟩, ?_⟩
      show 0 < g ∧ g < (prun ops s.push).next ∧ 0 < ig ∧ ig < (prun ops s.push).next
      omega
    obtain ⟨m1, m2, m3, m4, m5⟩ := ih2 (prun ops s.push).pop g ig below hb ht2 hne
    have hrun : prun (.push :: ops ++ .pop :: ops') s = prun ops' (prun ops s.push).pop := by
      rw [prun_append]
      rfl
    rw [hrun]
    have hlw : ∀ p a r, lastWrite p a 0 (.push :: ops ++ .pop :: ops') r = lastWrite p a 0 ops' r := by
      intro p a r
      simp only [List.cons_append, lastWrite]
      rw [lastWrite_inner p a ops hw 0]
      simp only [lastWrite, Nat.add_sub_cancel]
    refine ⟨m1, Nat.le_trans hn m2, ?_, ?_, ?_⟩
    · intro i a hi hg hig
      rw [m3 i a (by show i < (prun ops s.push).next; omega) hg hig]
      exact hheap i a hi
    · intro a
      rw [m4 a, hlw, show (prun ops s.push).pop.heap g a = (prun ops s.push).heap g a from rfl, hheap g a h4.2.1]
    · intro a
      rw [m5 a, hlw, show (prun ops s.push).pop.heap ig a = (prun ops s.push).heap ig a from rfl, hheap ig a h4.2.2.2]

/-- States reached from the start of the process. -/
def Reached (s : PSt) : Prop := s.st ≠ [] ∧ 0 < s.next

theorem reached_step (s : PSt) (op : POp) (h : Reached s) : Reached (pstep s op) := by
  obtain ⟨h1, h2⟩ := h
  cases op with
  | push => exact ⟨by simp [pstep, PSt.push, push], by simp [pstep, PSt.push]⟩
  | pop =>
    refine ⟨?_, h2⟩
    simp only [pstep, PSt.pop, pop]
    rcases hs : s.st with _ | ⟨a, _ | ⟨b, l⟩⟩
    · exact absurd hs h1
    · simp
    · simp
  | set a v =>
    refine ⟨?_, h2⟩
    simp only [pstep, setAttr]
    rcases hs : s.st with _ | ⟨_ | f, l⟩
    · exact absurd hs h1
    · simp
    · simp
  | write p a v =>
    simp only [pstep, PSt.write]
    rcases getAttr s.st p with _ | _ | i
    · exact ⟨h1, h2⟩
    · exact ⟨h1, h2⟩
    · exact ⟨h1, h2⟩

theorem reached_run (ops : List POp) (s : PSt) (h : Reached s) : Reached (prun ops s) := by
  induction ops generalizing s with
  | nil => exact h
  | cons op ops ih => exact ih _ (reached_step s op h)

/-- **C156** (values): whatever happened before, in a new session an attribute of `slash.g` has the value last written in this session, and is not there
if it was not written, whatever other sessions started meanwhile wrote. -/
theorem C156_values (before ops : List POp) (h : Whole ops) (p attr : String) (hp : storage p) :
    (prun ops (prun before {}).push).read p attr = lastWrite p attr 0 ops none := by
  have hr := reached_run before {} ⟨by simp [init], by decide⟩
  generalize prun before {} = s at hr
  have htp : Top s.push s.next (s.next + 1) s.st := by
    refine ⟨⟨newAttrs s.next (s.next + 1), rfl, by simp [newAttrs], by simp [newAttrs]⟩, ?_⟩
    have := hr.2
    show 0 < s.next ∧ s.next < s.next + 2 ∧ 0 < s.next + 1 ∧ s.next + 1 < s.next + 2
    omega
  obtain ⟨⟨⟨f, h1, h2, h3⟩, h4⟩, _, _, h5, h6⟩ := whole_run ops h s.push s.next (s.next + 1) s.st hr.1 htp (by omega)
  have hz : s.push.heap s.next attr = none ∧ s.push.heap (s.next + 1) attr = none := by simp [PSt.push]
  obtain ⟨k, hk⟩ : ∃ k, s.next = k + 1 := ⟨s.next - 1, by have := hr.2; omega⟩
  rcases hp with rfl | rfl
  · have := h5 attr
    rw [hz.1] at this
    rw [← this]
    simp only [PSt.read, getAttr, h1, h2]
    rw [hk]
  · have := h6 attr
    rw [hz.2] at this
    rw [← this]
    simp only [PSt.read, getAttr, h1, h3]

/-- **C156** (after a session): a session run within another one leaves everything read through `slash.g` as it was. -/
theorem C156_restored (before ops ops' : List POp) (h : Whole ops) (h' : Whole ops') (p attr : String) (hp : storage p) :
    (prun (ops ++ [.push] ++ ops' ++ [.pop]) (prun before {}).push).read p attr = (prun ops (prun before {}).push).read p attr := by
  have hw : ∀ {l}, Whole l → ∀ {l'}, Whole l' → Whole (l ++ l') := by
    intro l hl
    induction hl with
    | nil => exact fun h => h
    | set a v ha _ ih => exact fun h => .set a v ha (ih h)
    | write p a v hp _ ih => exact fun h => .write p a v hp (ih h)
    | inner h1 _ _ ih2 =>
      intro l' h
      have := Whole.inner h1 (ih2 h)
      simpa using this
  have h1 : Whole (ops ++ [.push] ++ ops' ++ [.pop]) := by
    have := hw h (Whole.inner h' .nil)
    simpa using this
  rw [C156_values before _ h1 p attr hp, C156_values before ops h p attr hp]
  have h2 : ∀ {l}, Whole l → ∀ r, ∃ r', ∀ rest, lastWrite p attr 0 (l ++ rest) r = lastWrite p attr 0 rest r' := by
    intro l hl
    induction hl with
    | nil => exact fun r => ⟨r, fun _ => rfl⟩
    | set a v _ _ ih =>
      intro r
      obtain ⟨r', hr'⟩ := ih r
      exact ⟨r', fun rest => by simp only [List.cons_append, lastWrite]; exact hr' rest⟩
    | write p' a v _ _ ih =>
      intro r
      obtain ⟨r', hr'⟩ := ih (if p' = p ∧ a = attr then some v else r)
      exact ⟨r', fun rest => by simp only [List.cons_append, lastWrite]; exact hr' rest⟩
    | inner hi _ _ ih2 =>
      intro r
      obtain ⟨r', hr'⟩ := ih2 r
      refine ⟨r', fun rest => ?_⟩
      simp only [List.cons_append, List.append_assoc, lastWrite]
      rw [lastWrite_inner p attr _ hi 0]
      simp only [lastWrite, Nat.add_sub_cancel]
      exact hr' rest
  obtain ⟨r', hr'⟩ := h2 h none
  have e1 := hr' ([.push] ++ ops' ++ [.pop])
  have e2 := hr' []
  rw [List.append_nil] at e2
  rw [show ops ++ [.push] ++ ops' ++ [.pop] = ops ++ ([.push] ++ ops' ++ [.pop]) by simp, e1, e2]
  simp only [List.cons_append, List.nil_append, lastWrite]
  rw [lastWrite_inner p attr ops' h' 0]
  simp [lastWrite]

/-- **C156** (writing): in a session writing to `slash.g` succeeds, whatever happened before; the value is read from then on, and other attributes are as before. -/
theorem C156_written (before ops : List POp) (h : Whole ops) (p attr : String) (hp : storage p) (v : Nat) :
    let s := prun ops (prun before {}).push
    (s.write p attr v).1 = true ∧ (s.write p attr v).2.read p attr = some v ∧ ∀ b, b ≠ attr → (s.write p attr v).2.read p b = s.read p b := by
  have hr := reached_run before {} ⟨by simp [init], by decide⟩
  generalize prun before {} = s at hr
  have htp : Top s.push s.next (s.next + 1) s.st := by
    refine ⟨⟨newAttrs s.next (s.next + 1), rfl, by simp [newAttrs], by simp [newAttrs]⟩, ?_⟩
    have := hr.2
    show 0 < s.next ∧ s.next < s.next + 2 ∧ 0 < s.next + 1 ∧ s.next + 1 < s.next + 2
    omega
  obtain ⟨⟨⟨f, h1, h2, h3⟩, h4⟩, -⟩ := whole_run ops h s.push s.next (s.next + 1) s.st hr.1 htp (by omega)
  obtain ⟨k, hk⟩ : ∃ k, getAttr (prun ops s.push).st p = some (k + 1) := by
    rcases hp with rfl | rfl
    · exact ⟨s.next - 1, by simp only [getAttr, h1, h2]; congr 1; have := hr.2; omega⟩
    · exact ⟨s.next, by simp only [getAttr, h1, h3]⟩
  simp only [PSt.write, hk, PSt.read, true_and, if_true]
  intro b hb
  simp [hb]

/-- **C156** (no session): without a session nothing can be read from or written to `slash.g`, whatever sessions there were. -/
theorem C156_no_session (s : PSt) (hs : s.st = [.null]) (p attr : String) (v : Nat) :
    s.read p attr = none ∧ (s.write p attr v).1 = false := by
  have : getAttr s.st p = none ∨ getAttr s.st p = some 0 := by
    rw [hs]
    simp only [getAttr]
    split
    · exact .inr rfl
    · exact .inl rfl
  rcases this with h | h <;> simp [PSt.read, PSt.write, h]

-- A session that writes, runs another one that writes other values, and reads again.
example : (prun [.push, .set "session" 90, .write "g" "x" 5, .push, .write "g" "x" 6, .write "g" "y" 7, .pop] {}).read "g" "x" = some 5 ∧
    (prun [.push, .set "session" 90, .write "g" "x" 5, .push, .write "g" "x" 6, .write "g" "y" 7, .pop] {}).read "g" "y" = none ∧
    (prun [.push, .write "g" "x" 5, .pop, .push] {}).read "g" "x" = none := by
  decide +kernel

example : Whole [.set "session" 90, .write "g" "x" 5, .push, .write "g" "x" 6, .pop] :=
  .set _ _ (by unfold storage; decide) (.write _ _ _ (.inl rfl) (.inner (ops := [.write "g" "x" 6]) (.write _ _ _ (.inl rfl) .nil) .nil))

/-! ## What proxies and contexts tell -/

/-- **C156** (comparison): comparing a proxy compares what the context has now. -/
theorem C156_eq (s : PSt) (p : String) (v : Nat) : s.eq p v = some true ↔ getAttr s.st p = some v := by
  unfold PSt.eq
  cases getAttr s.st p <;> simp

/-- Without a session `slash.session` equals `None`, but counts as true. -/
theorem C156_truth_violated : ∃ s : PSt, s.eq "session" 0 = some true ∧ s.truth "session" = true := ⟨{}, by decide, rfl⟩

/-- **C156** (attributes, partial): in a session, and without one, the test, its file, the session and the reporter can be asked for; without a test or session the
answer is `None`. Missing: see `C156_attributes_violated`. -/
theorem C156_attributes_partial (s : PSt) (hs : s.st = [.null] ∨ ∃ f below, s.st = .ctx f :: below ∧ f "test" ≠ none ∧ f "session" ≠ none)
    (file sid rep : Nat → Nat) (a : String) (ha : a ∈ ["test", "session", "test_filename", "reporter"]) :
    ∃ v, lookup s.st file sid rep a = some v ∧
      (a = "test_filename" → (v = if getAttr s.st "test" = some 0 then 0 else file ((getAttr s.st "test").getD 0))) ∧
      (a = "reporter" → (v = if getAttr s.st "session" = some 0 then 0 else rep ((getAttr s.st "session").getD 0))) := by
  rcases hs with hs | ⟨f, below, hs, ht, hss⟩
  · rw [hs]
    simp only [List.mem_cons, List.not_mem_nil, or_false] at ha
    rcases ha with rfl | rfl | rfl | rfl
    · exact ⟨0, rfl, fun h => absurd h (by decide), fun h => absurd h (by decide)⟩
    · exact ⟨0, rfl, fun h => absurd h (by decide), fun h => absurd h (by decide)⟩
    · exact ⟨0, rfl, fun _ => by rw [if_pos (by decide)], fun h => absurd h (by decide)⟩
    · exact ⟨0, rfl, fun h => absurd h (by decide), fun _ => by rw [if_pos (by decide)]⟩
  · rw [hs]
    obtain ⟨t, ht'⟩ := Option.ne_none_iff_exists'.1 ht
    obtain ⟨u, hu'⟩ := Option.ne_none_iff_exists'.1 hss
    simp only [List.mem_cons, List.not_mem_nil, or_false] at ha
    rcases ha with rfl | rfl | rfl | rfl
    · exact ⟨t, by simp [lookup, ht'], fun h => absurd h (by decide), fun h => absurd h (by decide)⟩
    · exact ⟨u, by simp [lookup, hu'], fun h => absurd h (by decide), fun h => absurd h (by decide)⟩
    · refine ⟨if t = 0 then 0 else file t, by simp [lookup, ht'], fun _ => ?_, fun h => absurd h (by decide)⟩
      simp [getAttr, ht']
    · refine ⟨if u = 0 then 0 else rep u, by simp [lookup, hu'], fun h => absurd h (by decide), fun _ => ?_⟩
      simp [getAttr, hu']

/-- Without a session the id of the session cannot be asked for; in a session the names of the class and the method of the test cannot, although they can without one. -/
theorem C156_attributes_violated (file sid rep : Nat → Nat) :
    lookup ({} : PSt).st file sid rep "session_id" = none ∧ lookup ({} : PSt).push.st file sid rep "session_id" = some 0 ∧
    (∀ a ∈ ["test_classname", "test_methodname"], lookup ({} : PSt).st file sid rep a = some 0 ∧ lookup ({} : PSt).push.st file sid rep a = none) := by
  refine ⟨rfl, rfl, ?_⟩
  intro a ha
  simp only [List.mem_cons, List.not_mem_nil, or_false] at ha
  rcases ha with rfl | rfl <;> exact ⟨rfl, rfl⟩

example : ∃ f below, (prun [.push, .set "session" 3, .set "test" 4] {}).st = .ctx f :: below ∧ f "test" = some 4 ∧ f "session" = some 3 := by
  exact ⟨_, _, rfl, rfl, rfl⟩

end Slash.Ctx
