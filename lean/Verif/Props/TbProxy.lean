import Verif.Model.TbProxy
import Verif.Lemmas.Util
/-!
# C149: the tracebacks of errors are complete
-/
namespace Slash.Tb

/-- The traceback that starts at `o` consists of the objects listed. -/
def IsTb (h : Heap) : Option Nat → List Nat → Prop
  | o, [] => o = none
  | o, i :: l => o = some i ∧ ∃ n, h[i]? = some n ∧ IsTb h n.next l

/-- The traceback that starts at `o` shows the positions listed, outermost first. -/
def Shows (h : Heap) (o : Option Nat) (ps : List Pos) : Prop :=
  ∃ ids, IsTb h o ids ∧ ids.map (fun i => (h[i]?).map (·.pos)) = ps.map some

/-! ## Lemmas -/

/-- Objects for the positions, linked one after the other, the first having the number `b`. -/
def block (b : Nat) : List Pos → List Node
  | [] => []
  | [p] => [⟨p, none⟩]
  | p :: q :: l => ⟨p, some (b + 1)⟩ :: block (b + 1) (q :: l)

theorem block_length (b : Nat) (ps : List Pos) : (block b ps).length = ps.length := by
  induction ps generalizing b with
  | nil => rfl
  | cons p l ih =>
    cases l with
    | nil => rfl
    | cons q l => simp only [block, List.length_cons, ih]

theorem block_snoc (b : Nat) (ps : List Pos) (hps : ps ≠ []) (q : Pos) :
    (block b ps ++ [(⟨q, none⟩ : Node)]).modify (ps.length - 1) (fun n => { n with next := some (b + ps.length) }) = block b (ps ++ [q]) := by
  induction ps generalizing b with
  | nil => exact absurd rfl hps
  | cons p l ih =>
    cases l with
    | nil => rfl
    | cons p' l =>
      have := ih (b + 1) (by simp)
      simp only [block, List.cons_append, List.length_cons, Nat.add_sub_cancel] at this ⊢
      rw [List.modify_succ_cons, ← this]
      have e : b + 1 + (l.length + 1) = b + (l.length + 1 + 1) := by omega
      rw [e]

theorem link_append (h l : Heap) (i j : Nat) (hi : h.length ≤ i) :
    Heap.link (h ++ l) i j = h ++ l.modify (i - h.length) (fun n => { n with next := some j }) := by
  unfold Heap.link
  induction h generalizing i with
  | nil => rfl
  | cons n h ih =>
    cases i with
    | zero => simp at hi
    | succ i =>
      simp only [List.cons_append, List.modify_succ_cons, List.length_cons]
      rw [ih i (by simpa using hi)]
      congr 3
      omega

theorem link_block (h : Heap) (ps : List Pos) (hps : ps ≠ []) (q : Pos) :
    Heap.link ((h ++ block h.length ps) ++ [⟨q, none⟩]) (h.length + ps.length - 1) (h ++ block h.length ps).length =
      h ++ block h.length (ps ++ [q]) := by
  have hl : 0 < ps.length := List.length_pos_iff.2 hps
  rw [List.append_assoc, link_append _ _ _ _ (by omega), List.length_append, block_length, ← block_snoc h.length ps hps q]
  have : h.length + ps.length - 1 - h.length = ps.length - 1 := by omega
  rw [this]

theorem copyFrames_block (h : Heap) (ps l : List Pos) (hps : ps ≠ []) :
    copyFrames (h ++ block h.length ps) (h.length + ps.length - 1) l =
      (h ++ block h.length (ps ++ l), h.length + (ps ++ l).length - 1) := by
  induction l generalizing ps with
  | nil => simp [copyFrames]
  | cons q l ih =>
    have hl : 0 < ps.length := List.length_pos_iff.2 hps
    simp only [copyFrames]
    rw [link_block h ps hps q]
    have h1 : (h ++ block h.length ps).length = h.length + (ps ++ [q]).length - 1 := by
      rw [List.length_append, block_length, List.length_append, List.length_singleton]
      omega
    rw [h1, ih (ps ++ [q]) (by simp)]
    simp

theorem fromStack_eq (h : Heap) (stack : List Pos) (c : Nat) (hne : (stack.drop (c + 1)) ≠ []) :
    fromStack h stack c = some (h ++ block h.length (stack.drop (c + 1)).reverse, h.length,
      h.length + (stack.drop (c + 1)).length - 1) := by
  unfold fromStack
  cases hr : (stack.drop (c + 1)).reverse with
  | nil => exact absurd (List.reverse_eq_nil_iff.1 hr) hne
  | cons p l =>
    have := copyFrames_block h [p] l (by simp)
    simp only [block, List.length_singleton, Nat.add_sub_cancel, List.singleton_append] at this
    simp only [this, ← hr, List.length_reverse]

theorem IsTb.lt {h : Heap} {o : Option Nat} {ids : List Nat} (hp : IsTb h o ids) : ∀ i ∈ ids, i < h.length := by
  induction ids generalizing o with
  | nil => simp
  | cons i l ih =>
    obtain ⟨_, n, hn, ht⟩ := hp
    intro j hj
    rcases List.mem_cons.1 hj with rfl | hj
    · exact (List.getElem?_eq_some_iff.1 hn).1
    · exact ih ht j hj

theorem IsTb.suffix {h : Heap} {o : Option Nat} {pre ids : List Nat} (hp : IsTb h o (pre ++ ids)) : ∃ o', IsTb h o' ids := by
  induction pre generalizing o with
  | nil => exact ⟨o, hp⟩
  | cons i l ih =>
    obtain ⟨_, n, _, ht⟩ := hp
    exact ih ht

theorem IsTb.unique {h : Heap} {o : Option Nat} {a b : List Nat} (ha : IsTb h o a) (hb : IsTb h o b) : a = b := by
  induction a generalizing o b with
  | nil =>
    cases b with
    | nil => rfl
    | cons i l =>
      have h1 : o = none := ha
      have h2 := hb.1
      rw [h1] at h2
      cases h2
  | cons i l ih =>
    cases b with
    | nil =>
      have h1 : o = none := hb
      have h2 := ha.1
      rw [h1] at h2
      cases h2
    | cons j m =>
      obtain ⟨h1, n, hn, ht⟩ := ha
      obtain ⟨h2, n', hn', ht'⟩ := hb
      have hij : i = j := by
        rw [h1] at h2
        injection h2
      subst hij
      have : n = n' := by
        rw [hn] at hn'
        injection hn'
      subst this
      rw [ih ht ht']

/-- A traceback never comes back to an object. -/
theorem IsTb.nodup {h : Heap} {o : Option Nat} {ids : List Nat} (hp : IsTb h o ids) : ids.Nodup := by
  induction ids generalizing o with
  | nil => exact List.nodup_nil
  | cons i l ih =>
    obtain ⟨ho, n, hn, ht⟩ := hp
    refine List.nodup_cons.2 ⟨fun hi => ?_, ih ht⟩
    obtain ⟨s, t, hst⟩ := List.append_of_mem hi
    rw [hst] at ht
    obtain ⟨o', ho'⟩ := ht.suffix
    have h1 : IsTb h (some i) (i :: t) := by
      obtain ⟨_, n', hn', ht'⟩ := ho'
      exact ⟨rfl, n', hn', ht'⟩
    have h2 : IsTb h (some i) (i :: (s ++ i :: t)) := ⟨rfl, n, hn, ht⟩
    have := congrArg List.length (h1.unique h2)
    simp at this
    omega

theorem IsTb.congr {h h' : Heap} {o : Option Nat} {ids : List Nat} (hp : IsTb h o ids) (heq : ∀ i ∈ ids, h'[i]? = h[i]?) : IsTb h' o ids := by
  induction ids generalizing o with
  | nil => exact hp
  | cons i l ih =>
    obtain ⟨ho, n, hn, ht⟩ := hp
    exact ⟨ho, n, by rw [heq i (by simp), hn], ih ht (fun j hj => heq j (by simp [hj]))⟩

theorem link_ne (h : Heap) (i j k : Nat) (hne : k ≠ i) : (Heap.link h i j)[k]? = h[k]? := by
  unfold Heap.link
  rw [List.getElem?_modify]
  have : i ≠ k := fun h => hne h.symm
  simp [this]

theorem link_length (h : Heap) (i j : Nat) : (Heap.link h i j).length = h.length := by
  unfold Heap.link
  exact List.length_modify _ _ _

theorem link_pos (h : Heap) (i j k : Nat) : ((Heap.link h i j)[k]?).map (·.pos) = (h[k]?).map (·.pos) := by
  by_cases hk : k = i
  · subst hk
    unfold Heap.link
    rw [List.getElem?_modify]
    cases h[k]? <;> simp
  · rw [link_ne h i j k hk]

/-- Copying a traceback is copying its positions. -/
theorem copyTb_eq (h0 : Heap) (fuel : Nat) (h : Heap) (current : Nat) (o : Option Nat) (ids : List Nat) (ps : List Pos)
    (hp : IsTb h0 o ids) (hps : ids.map (fun i => (h0[i]?).map (·.pos)) = ps.map some) (hfuel : ids.length ≤ fuel)
    (hcur : h0.length ≤ current) (hlen : h0.length ≤ h.length) (hagree : ∀ i, i < h0.length → h[i]? = h0[i]?) :
    copyTb fuel h current o = copyFrames h current ps := by
  induction fuel generalizing h current o ids ps with
  | zero =>
    have hi : ids = [] := List.length_eq_zero_iff.1 (by omega)
    subst hi
    have : ps = [] := by simpa using hps.symm
    subst this
    rfl
  | succ fuel ih =>
    cases ids with
    | nil =>
      have : ps = [] := by simpa using hps.symm
      subst this
      have ho : o = none := hp
      subst ho
      rfl
    | cons i l =>
      obtain ⟨ho, n, hn, ht⟩ := hp
      subst ho
      have hi : i < h0.length := (List.getElem?_eq_some_iff.1 hn).1
      cases ps with
      | nil => simp at hps
      | cons p ps =>
        simp only [List.map_cons, List.cons.injEq, hn, Option.map_some, Option.some.injEq] at hps
        have hstep : copyTb (fuel + 1) h current (some i) =
            copyTb fuel (Heap.link (h ++ [⟨n.pos, none⟩]) current h.length) h.length n.next := by
          simp only [copyTb, hagree i hi, hn]
        rw [hstep]
        simp only [copyFrames]
        rw [hps.1]
        refine ih _ _ _ l ps ht hps.2 (by simpa using hfuel) hlen ?_ ?_
        · rw [link_length, List.length_append]
          omega
        · intro j hj
          rw [link_ne _ _ _ _ (by omega), List.getElem?_append_left (by omega)]
          exact hagree j hj

theorem nodup_lt_length (ids : List Nat) (n : Nat) (hn : ids.Nodup) (hl : ∀ i ∈ ids, i < n) : ids.length ≤ n := by
  have hsub : ids ⊆ List.range n := fun i hi => List.mem_range.2 (hl i hi)
  have := nodup_subset_length hn hsub
  simpa using this

theorem fromTb_eq (h : Heap) (tb : Nat) (ids : List Nat) (ps : List Pos) (hp : IsTb h (some tb) ids)
    (hps : ids.map (fun i => (h[i]?).map (·.pos)) = ps.map some) :
    fromTb h tb = some (h ++ block h.length ps, h.length, h.length + ps.length - 1) := by
  cases ids with
  | nil => cases hp
  | cons i l =>
    have hall := hp
    obtain ⟨ho, n, hn, ht⟩ := hp
    have hi : tb = i := by injection ho
    subst hi
    cases ps with
    | nil => simp at hps
    | cons p ps =>
      simp only [List.map_cons, List.cons.injEq, hn, Option.map_some, Option.some.injEq] at hps
      have hlen := nodup_lt_length (tb :: l) h.length hall.nodup hall.lt
      unfold fromTb
      rw [hn]
      simp only
      rw [copyTb_eq h h.length (h ++ [⟨n.pos, none⟩]) h.length n.next l ps ht hps.2 (by simp at hlen; omega) (Nat.le_refl _) (by simp)
        (fun i hi => List.getElem?_append_left hi)]
      have := copyFrames_block h [p] ps (by simp)
      simp only [block, List.length_singleton, Nat.add_sub_cancel, List.singleton_append] at this
      rw [hps.1, this]

/-- The objects of a block. -/
theorem block_get (b : Nat) (ps : List Pos) (k : Nat) (p : Pos) (hk : ps[k]? = some p) :
    (block b ps)[k]? = some ⟨p, if k + 1 = ps.length then none else some (b + k + 1)⟩ := by
  induction ps generalizing b k with
  | nil => simp at hk
  | cons q l ih =>
    cases l with
    | nil =>
      cases k with
      | zero =>
        simp only [List.getElem?_cons_zero, Option.some.injEq] at hk
        subst hk
        rfl
      | succ k => simp at hk
    | cons r l =>
      cases k with
      | zero =>
        simp only [List.getElem?_cons_zero, Option.some.injEq] at hk
        subst hk
        simp [block]
      | succ k =>
        simp only [List.getElem?_cons_succ] at hk
        simp only [block, List.getElem?_cons_succ]
        rw [ih (b + 1) k hk]
        congr 2
        simp only [List.length_cons]
        by_cases hk' : k + 1 = l.length + 1
        · simp [hk']
        · rw [if_neg hk', if_neg (by omega)]
          congr 1
          omega

/-- A traceback made of two blocks, the second linked from the end of the first. -/
theorem isTb_range (h : Heap) (b m : Nat) (tail : List Nat) (hb : ∀ k, k < m → ∃ n, h[b + k]? = some n ∧ (k + 1 < m → n.next = some (b + k + 1)) ∧
    (k + 1 = m → IsTb h n.next tail)) (hm : 0 < m) :
    IsTb h (some b) ((List.range m).map (b + ·) ++ tail) := by
  induction m generalizing b with
  | zero => omega
  | succ m ih =>
    obtain ⟨n, hn, h1, h2⟩ := hb 0 (by omega)
    rw [List.range_succ_eq_map]
    simp only [List.map_cons, List.cons_append, Nat.add_zero, List.map_map]
    refine ⟨rfl, n, hn, ?_⟩
    by_cases hm0 : m = 0
    · subst hm0
      exact h2 rfl
    · have h3 := h1 (by omega)
      rw [h3]
      have := ih (b + 1) (fun k hk => by
        obtain ⟨n', hn', h4, h5⟩ := hb (k + 1) (by omega)
        refine ⟨n', ?_, ?_, ?_⟩
        · rw [← hn']
          congr 1
          omega
        · intro hk'
          rw [h4 (by omega)]
          congr 1
          omega
        · intro hk'
          exact h5 (by omega)) (by omega)
      have hmap : List.map ((b + ·) ∘ Nat.succ) (List.range m) = List.map (b + 1 + ·) (List.range m) := by
        apply List.map_congr_left
        intro k _
        simp only [Function.comp]
        omega
      rw [hmap]
      exact this

theorem map_range_block (h : Heap) (b : Nat) (ps : List Pos) (hb : ∀ (k : Nat) (p : Pos), ps[k]? = some p → (h[b + k]?).map (·.pos) = some p) :
    ((List.range ps.length).map (b + ·)).map (fun i => (h[i]?).map (·.pos)) = ps.map some := by
  apply List.ext_getElem
  · simp
  · intro k h1 h2
    simp only [List.getElem_map, List.getElem_range]
    have hk : k < ps.length := by simpa using h2
    rw [hb k ps[k] (List.getElem?_eq_getElem hk)]

/-! ## C149 -/

/-- C149: when an exception is handled, the traceback that is recorded shows the whole way from the start of the program to the place where
the exception was raised: the callers of the function that handles it, outermost first, and then what Python's traceback shows. The latter is left as it
was. `self`, `handling` and `here` are the frames of the two functions of slash and of the `with` statement; `more`: whatever
traceback objects come into existence before the exception is handled. -/
theorem C149_complete_partial (h : Heap) (self handling here : Pos) (callers : List Pos) (hcallers : callers ≠ []) (more : Heap) (tb : Nat) (ps : List Pos)
    (hfake : Shows ((enter h true (self :: handling :: here :: callers)).1 ++ more) (some tb) ps)
    (hreal : ∀ ids, IsTb ((enter h true (self :: handling :: here :: callers)).1 ++ more) (some tb) ids → ∀ i ∈ ids,
      i < h.length ∨ (enter h true (self :: handling :: here :: callers)).1.length ≤ i) :
    let e := enter h true (self :: handling :: here :: callers)
    let r := handled (e.1 ++ more) e.2 tb
    Shows r.1 (some r.2) (callers.reverse ++ ps) ∧ Shows r.1 (some tb) ps := by
  have he : enter h true (self :: handling :: here :: callers) =
      (h ++ block h.length callers.reverse, some (h.length, h.length + callers.length - 1)) := by
    unfold enter
    have := fromStack_eq h (self :: handling :: here :: callers) 2 (by simpa using hcallers)
    rw [this]
    simp
  simp only
  rw [he] at hfake hreal ⊢
  simp only at hfake hreal ⊢
  obtain ⟨ids, hids, hpos⟩ := hfake
  have hf := fromTb_eq _ tb ids ps hids hpos
  have hcl : 0 < callers.length := List.length_pos_iff.2 hcallers
  generalize hH : (h ++ block h.length callers.reverse) ++ more = H at *
  have hHlen : H.length = h.length + callers.length + more.length := by
    rw [← hH]
    simp only [List.length_append, block_length, List.length_reverse]
  unfold handled
  simp only [hf]
  have hidsne : ∀ i ∈ ids, i < H.length ∧ i ≠ h.length + callers.length - 1 := by
    intro i hi
    refine ⟨hids.lt i hi, ?_⟩
    have := hreal ids hids i hi
    simp only [List.length_append, block_length, List.length_reverse] at this
    omega
  have hpsne : 0 < ps.length := by
    cases ids with
    | nil => cases hids
    | cons i l =>
      have := congrArg List.length hpos
      simp at this
      omega
  -- the objects of the result
  have hget : ∀ k, k ≠ h.length + callers.length - 1 →
      (Heap.link (H ++ block H.length ps) (h.length + callers.length - 1) H.length)[k]? = (H ++ block H.length ps)[k]? :=
    fun k hk => link_ne _ _ _ _ hk
  have hcallerpos : ∀ (k : Nat) (p : Pos), callers.reverse[k]? = some p →
      H[h.length + k]? = some ⟨p, if k + 1 = callers.length then none else some (h.length + k + 1)⟩ := by
    intro k p hk
    have hk' : k < callers.length := by
      have := (List.getElem?_eq_some_iff.1 hk).1
      simpa using this
    rw [← hH, List.getElem?_append_left (by simp [block_length]; omega), List.getElem?_append_right (by omega), Nat.add_sub_cancel_left,
      block_get h.length callers.reverse k p hk]
    simp
  have hlast : (Heap.link (H ++ block H.length ps) (h.length + callers.length - 1) H.length)[h.length + callers.length - 1]? =
      ((H ++ block H.length ps)[h.length + callers.length - 1]?).map (fun n => { n with next := some H.length }) := by
    unfold Heap.link
    rw [List.getElem?_modify]
    simp
  refine ⟨⟨(List.range callers.length).map (h.length + ·) ++ (List.range ps.length).map (H.length + ·), ?_, ?_⟩, ⟨ids, ?_, ?_⟩⟩
  · refine isTb_range _ h.length callers.length _ ?_ hcl
    intro k hk
    have hk' : k < callers.reverse.length := by simpa using hk
    have hnode := hcallerpos k callers.reverse[k] (List.getElem?_eq_getElem hk')
    have hnode' : (H ++ block H.length ps)[h.length + k]? = _ := (List.getElem?_append_left (by omega)).trans hnode
    by_cases hkl : k + 1 = callers.length
    · have hidx : h.length + callers.length - 1 = h.length + k := by omega
      refine ⟨⟨callers.reverse[k], some H.length⟩, ?_, fun hh => by omega, fun _ => ?_⟩
      · rw [hidx] at hlast ⊢
        rw [hlast, hnode']
        rfl
      · have := isTb_range (Heap.link (H ++ block H.length ps) (h.length + callers.length - 1) H.length) H.length ps.length []
          (by
            intro j hj
            have hb := block_get H.length ps j ps[j] (List.getElem?_eq_getElem hj)
            refine ⟨⟨ps[j], if j + 1 = ps.length then none else some (H.length + j + 1)⟩, ?_, ?_, ?_⟩
            · rw [hget (H.length + j) (by omega), List.getElem?_append_right (by omega), Nat.add_sub_cancel_left, hb]
            · intro hj'
              simp only
              rw [if_neg (by omega)]
            · intro hj'
              simp only [hj', if_true]
              rfl) hpsne
        simpa using this
    · refine ⟨⟨callers.reverse[k], some (h.length + k + 1)⟩, ?_, fun _ => rfl, fun hh => absurd hh hkl⟩
      rw [hget _ (by omega), hnode', if_neg hkl]
  · rw [List.map_append, List.map_append]
    congr 1
    · have := map_range_block (Heap.link (H ++ block H.length ps) (h.length + callers.length - 1) H.length) h.length callers.reverse
        (by
          intro k p hk
          have hk' : k < callers.length := by
            have := (List.getElem?_eq_some_iff.1 hk).1
            simpa using this
          rw [link_pos, List.getElem?_append_left (by omega), hcallerpos k p hk]
          rfl)
      simpa using this
    · refine map_range_block _ H.length ps ?_
      intro k p hk
      rw [link_pos, List.getElem?_append_right (by omega), Nat.add_sub_cancel_left, block_get H.length ps k p hk]
      rfl
  · refine hids.congr fun i hi => ?_
    rw [hget i (hidsne i hi).2, List.getElem?_append_left (hidsne i hi).1]
  · rw [← hpos]
    apply List.map_congr_left
    intro i hi
    rw [hget i (hidsne i hi).2, List.getElem?_append_left (hidsne i hi).1]

/-- C149: without callers, or if it is asked for, the traceback is the one Python gives. -/
theorem C149_plain (h : Heap) (fake : Bool) (self handling here : Pos) (callers : List Pos) (hc : fake = false ∨ callers = []) (more : Heap) (tb : Nat) :
    let e := enter h fake (self :: handling :: here :: callers)
    handled (e.1 ++ more) e.2 tb = (h ++ more, tb) := by
  rcases hc with rfl | rfl
  · rfl
  · cases fake <;> rfl

/-- A program whose main function (1) calls a second one (2), which handles the exception of a third one (4) that it calls. -/
example : ∃ r : Heap × Nat,
    (let e := enter [] true [⟨100, 1⟩, ⟨101, 1⟩, ⟨3, 30⟩, ⟨2, 20⟩, ⟨1, 10⟩]
     handled (e.1 ++ [⟨⟨3, 31⟩, some 3⟩, ⟨⟨4, 40⟩, none⟩]) e.2 2) = r ∧ r.2 = 0 ∧
    r.1 = [⟨⟨1, 10⟩, some 1⟩, ⟨⟨2, 20⟩, some 4⟩, ⟨⟨3, 31⟩, some 3⟩, ⟨⟨4, 40⟩, none⟩, ⟨⟨3, 31⟩, some 5⟩, ⟨⟨4, 40⟩, none⟩] :=
  ⟨_, rfl, by decide⟩

/-- C149 fails for a context that is used for a second exception: the traceback recorded for the first one (object 0) then shows the second
one. -/
theorem C149_reused_context_violated :
    let e := enter [] true [⟨100, 1⟩, ⟨101, 1⟩, ⟨3, 30⟩, ⟨2, 20⟩]
    let r := handled (e.1 ++ [⟨⟨3, 31⟩, none⟩]) e.2 1
    let r' := handled (r.1 ++ [⟨⟨3, 35⟩, none⟩]) e.2 3
    Shows r.1 (some r.2) [⟨2, 20⟩, ⟨3, 31⟩] ∧ Shows r'.1 (some r.2) [⟨2, 20⟩, ⟨3, 35⟩] := by
  refine ⟨⟨[0, 2], ?_, rfl⟩, ⟨[0, 4], ?_, rfl⟩⟩
  · exact ⟨rfl, _, rfl, rfl, _, rfl, rfl⟩
  · exact ⟨rfl, _, rfl, rfl, _, rfl, rfl⟩

end Slash.Tb
