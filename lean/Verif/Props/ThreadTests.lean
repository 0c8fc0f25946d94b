import Verif.Model.ThreadTests
/-! Property theorems about threads that report errors while tests come and go: C186. -/
namespace Slash.ThrTests

/-! ## Lemmas -/

/-- What a turn of a thread does. -/
theorem thread_cases (s : St) (j : Nat) :
    step s (.thread j) = s ∨
    ∃ h x todo, s.threads[j]? = some h ∧ h.todo = x :: todo ∧
      ((∃ st, look s x h.stage = .inl st ∧ step s (.thread j) = { s with threads := s.threads.set j { h with stage := st } }) ∨
       (∃ o, look s x h.stage = .inr o ∧
         step s (.thread j) = { s with threads := s.threads.set j { h with todo := todo, stage := .idle }, out := s.out ++ [(j, x, o)] })) := by
  simp only [step, threadStep]
  cases hj : s.threads[j]? with
  | none => exact .inl rfl
  | some h =>
    cases ht : h.todo with
    | nil => exact .inl (by simp [ht])
    | cons x todo =>
      refine .inr ⟨h, x, todo, rfl, ht, ?_⟩
      simp only [ht]
      cases look s x h.stage with
      | inl st => exact .inl ⟨st, rfl, rfl⟩
      | inr o => exact .inr ⟨o, rfl, rfl⟩

theorem thread_ctx (s : St) (j : Nat) :
    (step s (.thread j)).main = s.main ∧ (step s (.thread j)).session = s.session ∧ (step s (.thread j)).test = s.test ∧
    (step s (.thread j)).result = s.result ∧ (step s (.thread j)).results = s.results ∧ (step s (.thread j)).prevT = s.prevT ∧
    (step s (.thread j)).prevR = s.prevR := by
  rcases thread_cases s j with e | ⟨h, x, todo, -, -, ⟨st, -, e⟩ | ⟨o, -, e⟩⟩ <;> rw [e] <;> exact ⟨rfl, rfl, rfl, rfl, rfl, rfl, rfl⟩

/-- What a turn of a thread does to the thread `i`: nothing to others, and the owner stays. -/
theorem thread_get (s : St) (j i : Nat) (h' : Thread) (hi : (step s (.thread j)).threads[i]? = some h') :
    ∃ h, s.threads[i]? = some h ∧ h'.owner = h.owner ∧ h'.ops = h.ops ∧ (i ≠ j → h' = h) := by
  rcases thread_cases s j with e | ⟨h, x, todo, hj, -, ⟨st, -, e⟩ | ⟨o, -, e⟩⟩
  · rw [e] at hi; exact ⟨h', hi, rfl, rfl, fun _ => rfl⟩
  all_goals
    rw [e] at hi
    simp only [List.getElem?_set] at hi
    split at hi
    · rename_i hij
      subst hij
      split at hi
      · cases hi; exact ⟨h, hj, rfl, rfl, fun hn => absurd rfl hn⟩
      · cases hi
    · exact ⟨h', hi, rfl, rfl, fun _ => rfl⟩

theorem thread_out (s : St) (j : Nat) (x : Nat × Item × Out) (hx : x ∈ (step s (.thread j)).out) : x ∈ s.out ∨ x.1 = j := by
  rcases thread_cases s j with e | ⟨h, y, todo, hj, -, ⟨st, -, e⟩ | ⟨o, -, e⟩⟩ <;> rw [e] at hx
  · exact .inl hx
  · exact .inl hx
  · rcases List.mem_append.1 hx with h | h
    · exact .inl h
    · rw [List.mem_singleton] at h; subst h; exact .inr rfl

/-! ### Every report has one outcome -/

/-- The outcomes of the thread `i`, in order. -/
def outs (s : St) (i : Nat) : List (Nat × Item × Out) := s.out.filter (fun x => x.1 == i)

/-- What holds always: outcomes are of threads there are, and each thread has an outcome for each report that is done. -/
structure Once (s : St) : Prop where
  bound : ∀ x ∈ s.out, x.1 < s.threads.length
  once : ∀ i h, s.threads[i]? = some h → (outs s i).map (·.2.1) ++ h.todo = h.ops

theorem Once.same {s s' : St} (h : Once s) (ht : s'.threads = s.threads) (ho : s'.out = s.out) : Once s' :=
  ⟨by rw [ht, ho]; exact h.bound, by unfold outs; rw [ht, ho]; exact h.once⟩

theorem Once.main {s : St} (h : Once s) : Once (step s .main) := by
  simp only [step]
  cases hm : s.main with
  | nil => exact h
  | cons op rest =>
    cases op with
    | spawn t ops =>
      refine ⟨fun x hx => ?_, fun i g hg => ?_⟩
      · have := h.bound x hx
        show x.1 < (s.threads ++ [_]).length
        simp; omega
      · have hg' : (s.threads ++ [({ owner := t, ops := ops, todo := ops } : Thread)])[i]? = some g := hg
        show (outs s i).map (·.2.1) ++ g.todo = g.ops
        rcases Nat.lt_or_ge i s.threads.length with hl | hl
        · rw [List.getElem?_append_left hl] at hg'
          exact h.once i g hg'
        · rw [List.getElem?_append_right hl] at hg'
          have : outs s i = [] := by
            unfold outs
            rw [List.filter_eq_nil_iff]
            intro x hx he
            have := h.bound x hx
            simp at he
            omega
          rw [this]
          cases hk : i - s.threads.length with
          | zero => rw [hk] at hg'; simp at hg'; subst hg'; rfl
          | succ k => rw [hk] at hg'; simp at hg'
    | join t =>
      simp only [MOp.run]
      split
      · exact h.same rfl rfl
      · exact h
    | _ => exact h.same rfl rfl

theorem Once.thread {s : St} (h : Once s) (j : Nat) : Once (step s (.thread j)) := by
  rcases thread_cases s j with e | ⟨g, x, todo, hj, ht, ⟨st, -, e⟩ | ⟨o, -, e⟩⟩
  · rw [e]; exact h
  · rw [e]
    refine ⟨fun x hx => by simpa using h.bound x hx, fun i g' hg' => ?_⟩
    simp only [List.getElem?_set] at hg'
    show (outs s i).map (·.2.1) ++ g'.todo = g'.ops
    split at hg'
    · rename_i hij
      subst hij
      split at hg'
      · cases hg'; exact h.once j g hj
      · cases hg'
    · exact h.once i g' hg'
  · rw [e]
    have hlt : j < s.threads.length := by
      rcases Nat.lt_or_ge j s.threads.length with h | h
      · exact h
      · rw [List.getElem?_eq_none h] at hj; cases hj
    refine ⟨fun y hy => ?_, fun i g' hg' => ?_⟩
    · simp only [List.length_set]
      rcases List.mem_append.1 hy with hy | hy
      · exact h.bound y hy
      · rw [List.mem_singleton] at hy; subst hy; exact hlt
    · simp only [List.getElem?_set] at hg'
      simp only [outs, List.filter_append, List.map_append]
      split at hg'
      · rename_i hij
        subst hij
        cases hg'
        have := h.once j g hj
        rw [ht] at this
        simpa [outs] using this
      · rename_i hij
        have hb : (j == i) = false := by simpa using hij
        have := h.once i g' hg'
        simpa [outs, hb] using this

theorem Once.step {s : St} (h : Once s) (t : Turn) : Once (step s t) := by
  cases t with
  | main => exact h.main
  | thread j => exact h.thread j

theorem Once.run {s : St} (h : Once s) (l : List Turn) : Once (run s l) := by
  induction l generalizing s with
  | nil => exact h
  | cons t l ih => exact ih (h.step t)

theorem Once.init (ts : List Test) : Once (session ts) := ⟨(fun x hx => by simp [session] at hx), (fun i h hh => by simp [session] at hh)⟩

/-! ### Threads that are waited for -/

/-- The threads of the test `t` have only been recorded for it, and are not on another way. -/
def Good (t : Nat) (s : St) : Prop := ∀ i h, s.threads[i]? = some h → h.owner = t →
  (∀ x ∈ s.out, x.1 = i → x.2.2 = .recorded (.test t)) ∧ (∀ n r, h.todo = .exc n :: r → h.stage = .idle ∨ h.stage = .askTest ∨ h.stage = .look)

/-- The context is that of the test `t`. -/
structure Within (t : Nat) (s : St) : Prop where
  session : s.session = true
  test : s.test = some t
  result : s.result = some (.test t)
  known : t ∈ s.results

theorem look_within {t : Nat} {s : St} (w : Within t s) (x : Item) (st : Stage)
    (hs : ∀ n, x = .exc n → st = .idle ∨ st = .askTest ∨ st = .look) :
    (∃ st', look s x st = .inl st' ∧ (∀ n, x = .exc n → st' = .idle ∨ st' = .askTest ∨ st' = .look)) ∨ look s x st = .inr (.recorded (.test t)) := by
  obtain ⟨w1, w2, w3, w4⟩ := w
  cases x with
  | err n =>
    cases st with
    | idle => exact .inl ⟨.use, by simp [look, w1], fun _ h => by cases h⟩
    | _ => exact .inr (by simp [look, w1, w3])
  | exc n =>
    rcases hs n rfl with rfl | rfl | rfl
    · exact .inl ⟨.askTest, by simp [look, w1], fun _ _ => .inr (.inl rfl)⟩
    · exact .inl ⟨.look, by simp [look, w2], fun _ _ => .inr (.inr rfl)⟩
    · exact .inr (by simp [look, w1, w2, w4])

theorem Good.thread {t : Nat} {s : St} (h : Good t s) (w : Within t s) (j : Nat) : Good t (step s (.thread j)) := by
  intro i h' hi ho
  by_cases hij : i = j
  · subst hij
    rcases thread_cases s i with e | ⟨g, x, todo, hj, ht, hc⟩
    · rw [e] at hi ⊢; exact h i h' hi ho
    · have hlt : i < s.threads.length := by
        rcases Nat.lt_or_ge i s.threads.length with h | h
        · exact h
        · rw [List.getElem?_eq_none h] at hj; cases hj
      have hgo : g.owner = t := by
        obtain ⟨g', hg', h1, -⟩ := thread_get s i i h' hi
        rw [hj] at hg'; cases hg'; rw [← h1]; exact ho
      obtain ⟨h1, h2⟩ := h i g hj hgo
      have hl := look_within w x g.stage (fun n hn => h2 n todo (by rw [ht, hn]))
      rcases hc with ⟨st, hk, e⟩ | ⟨o, hk, e⟩
      · rw [e] at hi ⊢
        simp only [List.getElem?_set, if_true, hlt] at hi
        cases hi
        refine ⟨h1, fun n r hr => ?_⟩
        rcases hl with ⟨st', hl, hs⟩ | hl
        · rw [hk] at hl; cases hl
          have : x = .exc n := by
            have hr' : g.todo = .exc n :: r := hr
            rw [ht] at hr'; cases hr'; rfl
          exact hs n this
        · rw [hk] at hl; cases hl
      · rw [e] at hi ⊢
        simp only [List.getElem?_set, if_true, hlt] at hi
        cases hi
        refine ⟨fun y hy hyi => ?_, fun _ _ _ => .inl rfl⟩
        rcases List.mem_append.1 hy with hy | hy
        · exact h1 y hy hyi
        · rw [List.mem_singleton] at hy; subst hy
          rcases hl with ⟨st', hl, -⟩ | hl
          · rw [hk] at hl; cases hl
          · rw [hk] at hl; cases hl; rfl
  · obtain ⟨g, hg, -, -, hsame⟩ := thread_get s j i h' hi
    have := hsame hij
    subst this
    obtain ⟨h1, h2⟩ := h i h' hg ho
    refine ⟨fun x hx hxi => ?_, h2⟩
    rcases thread_out s j x hx with hx | hx
    · exact h1 x hx hxi
    · exact absurd (hxi.symm.trans hx) hij

/-- A step that starts no thread of `t`, finishes no report, and does not turn to the test. -/
theorem Good.same {t : Nat} {s s' : St} (h : Good t s) (ht : s'.threads = s.threads) (ho : s'.out = s.out) : Good t s' := by
  unfold Good; rw [ht, ho]; exact h

/-- Once they are finished, threads stay so. -/
def Over (t : Nat) (s : St) : Prop := ∀ h ∈ s.threads, h.owner = t → h.todo = []

theorem Over.thread {t : Nat} {s : St} (h : Over t s) (hg : Good t s) (j : Nat) : Over t (step s (.thread j)) ∧ Good t (step s (.thread j)) := by
  have key : ∀ i h', (step s (.thread j)).threads[i]? = some h' → h'.owner = t →
      s.threads[i]? = some h' ∧ (∀ x ∈ (step s (.thread j)).out, x.1 = i → x ∈ s.out) := by
    intro i h' hi ho
    by_cases hij : i = j
    · subst hij
      rcases thread_cases s i with e | ⟨g, x, todo, hj, ht, -⟩
      · rw [e] at hi ⊢; exact ⟨hi, fun _ hx _ => hx⟩
      · obtain ⟨g', hg', h1, -⟩ := thread_get s i i h' hi
        rw [hj] at hg'; cases hg'
        have := h g (List.mem_of_getElem? hj) (by rw [← h1]; exact ho)
        rw [ht] at this; cases this
    · obtain ⟨g, hg, -, -, hsame⟩ := thread_get s j i h' hi
      have := hsame hij
      subst this
      refine ⟨hg, fun x hx hxi => ?_⟩
      rcases thread_out s j x hx with hx | hx
      · exact hx
      · exact absurd (hxi.symm.trans hx) hij
  refine ⟨fun h' hh ho => ?_, fun i h' hi ho => ?_⟩
  · obtain ⟨i, hi⟩ := List.getElem?_of_mem hh
    exact h h' (List.mem_of_getElem? (key i h' hi ho).1) ho
  · obtain ⟨h1, h2⟩ := key i h' hi ho
    obtain ⟨h3, h4⟩ := hg i h' h1 ho
    exact ⟨fun x hx hxi => h3 x (h2 x hx hxi) hxi, h4⟩

/-- no thread of the test has been started -/
def None_ (t : Nat) (s : St) : Prop := ∀ h ∈ s.threads, h.owner ≠ t

theorem None_.over {t : Nat} {s : St} (h : None_ t s) : Over t s ∧ Good t s :=
  ⟨fun g hg ho => absurd ho (h g hg), fun i g hi ho => absurd ho (h g (List.mem_of_getElem? hi))⟩

theorem None_.thread {t : Nat} {s : St} (h : None_ t s) (j : Nat) : None_ t (step s (.thread j)) := by
  intro h' hh ho
  obtain ⟨i, hi⟩ := List.getElem?_of_mem hh
  obtain ⟨g, hg, h1, -⟩ := thread_get s j i h' hi
  exact h g (List.mem_of_getElem? hg) (h1.symm.trans ho)

/-- an operation that is neither the start nor the end of a session and starts no thread of `t` -/
def Plain (t : Nat) (op : MOp) : Prop := op ≠ .push ∧ op ≠ .pop ∧ ∀ ops, op ≠ .spawn t ops

/-- How far the main thread has come with the test `t`: `b` what the test still does before it waits. -/
inductive Phase (t : Nat) (b : List MOp) (suf : List MOp) (s : St) : Prop
  | pushing (p : List MOp) (hp : ∀ op ∈ p, Plain t op) (hm : s.main = .push :: .setSession :: (p ++ .setTest t :: .create t :: .setResult t :: (b ++ .join t :: suf)))
      (hn : None_ t s)
  | opening (p : List MOp) (hp : ∀ op ∈ p, Plain t op) (hm : s.main = .setSession :: (p ++ .setTest t :: .create t :: .setResult t :: (b ++ .join t :: suf)))
      (hn : None_ t s)
  | before (p : List MOp) (hp : ∀ op ∈ p, Plain t op) (hs : s.session = true)
      (hm : s.main = p ++ .setTest t :: .create t :: .setResult t :: (b ++ .join t :: suf)) (hn : None_ t s)
  | creating (hs : s.session = true) (ht : s.test = some t) (hm : s.main = .create t :: .setResult t :: (b ++ .join t :: suf)) (hn : None_ t s)
  | setting (hs : s.session = true) (ht : s.test = some t) (hk : t ∈ s.results) (hm : s.main = .setResult t :: (b ++ .join t :: suf)) (hn : None_ t s)
  | within (b' : List MOp) (hb : ∀ op ∈ b', ∃ ops, op = .spawn t ops) (w : Within t s) (hm : s.main = b' ++ .join t :: suf) (hg : Good t s)
  | after (suf' : List MOp) (hsuf : ∀ op ∈ suf', ∀ ops, op ≠ .spawn t ops) (hj : .join t ∉ suf') (hm : s.main = suf') (ho : Over t s) (hg : Good t s)

theorem Phase.thread {t : Nat} {b suf : List MOp} {s : St} (h : Phase t b suf s) (j : Nat) : Phase t b suf (step s (.thread j)) := by
  obtain ⟨e1, e2, e3, e4, e5, -, -⟩ := thread_ctx s j
  cases h with
  | pushing p hp hm hn => exact .pushing p hp (e1.trans hm) (hn.thread j)
  | opening p hp hm hn => exact .opening p hp (e1.trans hm) (hn.thread j)
  | before p hp hs hm hn => exact .before p hp (e2.trans hs) (e1.trans hm) (hn.thread j)
  | creating hs ht hm hn => exact .creating (e2.trans hs) (e3.trans ht) (e1.trans hm) (hn.thread j)
  | setting hs ht hk hm hn => exact .setting (e2.trans hs) (e3.trans ht) (e5 ▸ hk) (e1.trans hm) (hn.thread j)
  | within b' hb w hm hg =>
    exact .within b' hb ⟨e2.trans w.session, e3.trans w.test, e4.trans w.result, e5 ▸ w.known⟩ (e1.trans hm) (hg.thread w j)
  | after suf' hsuf hj hm ho hg => exact .after suf' hsuf hj (e1.trans hm) (ho.thread hg j).1 (ho.thread hg j).2

theorem spawn_none {t u : Nat} {s : St} {ops : List Item} (h : None_ t s) (hu : u ≠ t) :
    ∀ g ∈ s.threads ++ [({ owner := u, ops := ops, todo := ops } : Thread)], g.owner ≠ t := by
  intro g hg
  rcases List.mem_append.1 hg with hg | hg
  · exact h g hg
  · rw [List.mem_singleton] at hg; subst hg; exact hu

theorem Good.spawn {t u : Nat} {s : St} {ops : List Item} {rest : List MOp} (h : Good t s) (ho : Once s) :
    Good t { s with main := rest, threads := s.threads ++ [{ owner := u, ops := ops, todo := ops }] } := by
  intro i g hg hgo
  have hg' : (s.threads ++ [({ owner := u, ops := ops, todo := ops } : Thread)])[i]? = some g := hg
  rcases Nat.lt_or_ge i s.threads.length with hl | hl
  · rw [List.getElem?_append_left hl] at hg'
    exact h i g hg' hgo
  · rw [List.getElem?_append_right hl] at hg'
    refine ⟨fun x hx hxi => ?_, fun _ _ _ => ?_⟩
    · have := ho.bound x hx
      omega
    · cases hk : i - s.threads.length with
      | zero => rw [hk] at hg'; simp at hg'; subst hg'; exact .inl rfl
      | succ k => rw [hk] at hg'; simp at hg'

theorem Phase.main {t : Nat} {b suf : List MOp} (hb : ∀ op ∈ b, ∃ ops, op = .spawn t ops) (hsuf : ∀ op ∈ suf, ∀ ops, op ≠ .spawn t ops) (hj : .join t ∉ suf)
    {s : St} (ho : Once s) (h : Phase t b suf s) : Phase t b suf (step s .main) := by
  cases h with
  | pushing p hp hm hn =>
    simp only [step, hm]
    exact .opening p hp rfl hn
  | opening p hp hm hn =>
    simp only [step, hm]
    exact .before p hp rfl rfl hn
  | before p hp hs hm hn =>
    cases p with
    | nil =>
      simp only [step, hm]
      exact .creating hs rfl rfl hn
    | cons op p =>
      have hp' : ∀ op ∈ p, Plain t op := fun o h => hp o (by simp [h])
      simp only [step, hm, List.cons_append]
      have hop := hp op (by simp)
      cases op with
      | push => exact absurd rfl hop.1
      | pop => exact absurd rfl hop.2.1
      | spawn u ops =>
        have hu : u ≠ t := fun e => hop.2.2 ops (by rw [e])
        exact .before p hp' hs rfl (spawn_none hn hu)
      | join u =>
        simp only [MOp.run]
        split
        · exact .before p hp' hs rfl hn
        · exact .before (.join u :: p) hp hs hm hn
      | setSession => exact .before p hp' rfl rfl hn
      | _ => exact .before p hp' hs rfl hn
  | creating hs ht hm hn =>
    simp only [step, hm]
    exact .setting hs ht (List.mem_cons_self ..) rfl hn
  | setting hs ht hk hm hn =>
    simp only [step, hm]
    exact .within b hb ⟨hs, ht, rfl, hk⟩ rfl hn.over.2
  | within b' hb' w hm hg =>
    cases b' with
    | nil =>
      simp only [step, hm, List.nil_append, MOp.run]
      split
      · rename_i hall
        refine .after suf hsuf hj rfl (fun g hgm hgo => ?_) (hg.same rfl rfl)
        have := List.all_eq_true.1 hall g hgm
        simpa [hgo] using this
      · exact .within [] hb' w hm hg
    | cons op b' =>
      obtain ⟨ops, rfl⟩ := hb' op (by simp)
      simp only [step, hm, List.cons_append]
      exact .within b' (fun o h => hb' o (by simp [h])) ⟨w.session, w.test, w.result, w.known⟩ rfl (hg.spawn ho)
  | after suf' hsuf' hj' hm hov hg =>
    cases suf' with
    | nil => simp only [step, hm]; exact .after [] hsuf' hj' hm hov hg
    | cons op suf' =>
      have h1 : ∀ op ∈ suf', ∀ ops, op ≠ .spawn t ops := fun o h => hsuf' o (by simp [h])
      have h2 : .join t ∉ suf' := fun h => hj' (by simp [h])
      simp only [step, hm]
      cases op with
      | spawn u ops =>
        have hu : u ≠ t := fun e => hsuf' (.spawn u ops) (by simp) ops (by rw [e])
        refine .after suf' h1 h2 rfl (fun g hgm hgo => ?_) (hg.spawn ho)
        rcases List.mem_append.1 hgm with hgm | hgm
        · exact hov g hgm hgo
        · rw [List.mem_singleton] at hgm; subst hgm; exact absurd hgo hu
      | join u =>
        simp only [MOp.run]
        split
        · exact .after suf' h1 h2 rfl hov (hg.same rfl rfl)
        · exact .after (.join u :: suf') hsuf' hj' hm hov hg
      | _ => exact .after suf' h1 h2 rfl hov (hg.same rfl rfl)

theorem Phase.run {t : Nat} {b suf : List MOp} (hb : ∀ op ∈ b, ∃ ops, op = .spawn t ops) (hsuf : ∀ op ∈ suf, ∀ ops, op ≠ .spawn t ops) (hj : .join t ∉ suf)
    (l : List Turn) {s : St} (ho : Once s) (h : Phase t b suf s) : Phase t b suf (run s l) := by
  induction l generalizing s with
  | nil => exact h
  | cons u l ih =>
    refine ih (ho.step u) ?_
    cases u with
    | main => exact h.main hb hsuf hj ho
    | thread j => exact h.thread j

/-- the operations for other tests -/
theorem ops_other (ts : List Test) (t : Nat) (h : ∀ u ∈ ts, u.id ≠ t) : (∀ op ∈ (ts.map Test.ops).flatten, Plain t op) ∧ .join t ∉ (ts.map Test.ops).flatten := by
  have : ∀ u : Test, u.id ≠ t → (∀ op ∈ u.ops, Plain t op) ∧ .join t ∉ u.ops := by
    intro u hu
    obtain ⟨id, threads, waits, started⟩ := u
    dsimp only at hu
    refine ⟨fun op hop => ?_, fun hop => ?_⟩
    · cases started <;> cases waits <;> simp [Test.ops] at hop <;> (rcases hop with hop | hop) <;> unfold Plain <;> grind
    · cases started <;> cases waits <;> simp [Test.ops] at hop
      exact hu hop.symm
  constructor
  · intro op hop
    obtain ⟨l, hl, hop⟩ := List.mem_flatten.1 hop
    obtain ⟨u, hu, rfl⟩ := List.mem_map.1 hl
    exact (this u (h u hu)).1 op hop
  · intro hop
    obtain ⟨l, hl, hop⟩ := List.mem_flatten.1 hop
    obtain ⟨u, hu, rfl⟩ := List.mem_map.1 hl
    exact (this u (h u hu)).2 hop

/-! ### Nothing is lost that is added while the session runs -/

/-- the current result is only restored after it was remembered -/
def Safe : Bool → List MOp → Prop
  | _, [] => True
  | _, .push :: _ => False
  | _, .pop :: _ => False
  | _, .setResult _ :: r => Safe true r
  | b, .endResult :: r => b = true ∧ Safe b r
  | b, .restoreResult :: r => b = true ∧ Safe b r
  | b, _ :: r => Safe b r

theorem safe_ops (ts : List Test) (b : Bool) : Safe b (ts.map Test.ops).flatten := by
  have sp : ∀ (l : List (List Item)) (t : Nat) (r : List MOp), Safe true r → Safe true (l.map (.spawn t) ++ r) := by
    intro l t r hr
    induction l with
    | nil => exact hr
    | cons _ _ ih => exact ih
  induction ts generalizing b with
  | nil => simp [Safe]
  | cons t ts ih =>
    obtain ⟨id, threads, waits, started⟩ := t
    cases started
    · simp only [List.map_cons, List.flatten_cons, Test.ops, Bool.false_eq_true, if_false, List.cons_append, List.nil_append, Safe]
      exact ⟨trivial, ih true⟩
    · simp only [List.map_cons, List.flatten_cons, Test.ops, if_true, List.cons_append, List.nil_append, Safe, List.append_assoc]
      apply sp
      cases waits
      · simp only [Bool.false_eq_true, if_false, List.nil_append, Safe]
        exact ⟨trivial, trivial, ih true⟩
      · simp only [if_true, List.cons_append, List.nil_append, Safe]
        exact ⟨trivial, trivial, ih true⟩

/-- all errors that were added are recorded -/
def Added (s : St) : Prop := ∀ x ∈ s.out, ∀ n, x.2.1 = .err n → ∃ r, x.2.2 = .recorded r

/-- How far the session has come. -/
inductive Life (s : St) : Prop
  | start (q : List MOp) (hq : Safe false q)
      (hm : s.main = .push :: .setSession :: .initResult :: (q ++ [.pop]) ∨ s.main = .setSession :: .initResult :: (q ++ [.pop]) ∨
        s.main = .initResult :: (q ++ [.pop]) ∧ s.session = true) (ht : s.threads = []) (ho : s.out = []) (hp : s.prevR = none)
  | running (q : List MOp) (hq : Safe s.prevR.isSome q) (hm : s.main = q ++ [.pop]) (hs : s.session = true) (hr : s.result.isSome = true) (ha : Added s)
  | over (hm : s.main = [])

theorem Life.thread {s : St} (h : Life s) (j : Nat) : Life (step s (.thread j)) := by
  obtain ⟨e1, e2, e3, e4, e5, e6, e7⟩ := thread_ctx s j
  cases h with
  | start q hq hm ht ho hp =>
    have : step s (.thread j) = s := by simp [step, threadStep, ht]
    rw [this]
    exact .start q hq hm ht ho hp
  | over hm => exact .over (e1.trans hm)
  | running q hq hm hs hr ha =>
    refine .running q (by rw [e7]; exact hq) (e1.trans hm) (e2.trans hs) (by rw [e4]; exact hr) ?_
    intro x hx n hn
    rcases thread_cases s j with e | ⟨h, y, todo, hj, ht, ⟨st, hk, e⟩ | ⟨o, hk, e⟩⟩ <;> rw [e] at hx
    · exact ha x hx n hn
    · exact ha x hx n hn
    · rcases List.mem_append.1 hx with hx | hx
      · exact ha x hx n hn
      · rw [List.mem_singleton] at hx
        subst hx
        dsimp only at hn ⊢
        subst hn
        obtain ⟨r, hr⟩ := Option.isSome_iff_exists.1 hr
        cases hg : h.stage <;> rw [hg] at hk <;> simp [look, hs, hr] at hk <;> exact ⟨r, hk.symm⟩

theorem Life.main {s : St} (h : Life s) : Life (step s .main) := by
  cases h with
  | start q hq hm ht ho hp =>
    rcases hm with hm | hm | ⟨hm, hs⟩
    · simp only [step, hm]
      exact .start q hq (.inr (.inl rfl)) ht ho hp
    · simp only [step, hm]
      exact .start q hq (.inr (.inr ⟨rfl, rfl⟩)) ht ho hp
    · simp only [step, hm]
      refine .running q ?_ rfl hs rfl (fun x hx => ?_)
      · show Safe s.prevR.isSome q
        rw [hp]; exact hq
      · have : x ∈ s.out := hx
        rw [ho] at this; cases this
  | over hm => simp only [step, hm]; exact .over hm
  | running q hq hm hs hr ha =>
    cases q with
    | nil =>
      simp only [step, hm, List.nil_append]
      exact .over rfl
    | cons op q =>
      simp only [step, hm, List.cons_append]
      cases op with
      | push => exact hq.elim
      | pop => exact hq.elim
      | setSession => exact .running q hq rfl rfl hr ha
      | initResult => exact .running q hq rfl hs rfl ha
      | setTest t => exact .running q hq rfl hs hr ha
      | create t => exact .running q hq rfl hs hr ha
      | setResult t => exact .running q (by show Safe s.result.isSome q; rw [hr]; exact hq) rfl hs rfl ha
      | spawn t ops => exact .running q hq rfl hs hr ha
      | join t =>
        simp only [MOp.run]
        split
        · exact .running q hq rfl hs hr ha
        · exact .running (.join t :: q) hq hm hs hr ha
      | endResult => exact .running q hq.2 rfl hs hq.1 ha
      | restoreResult => exact .running q hq.2 rfl hs hq.1 ha
      | restoreTest => exact .running q hq rfl hs hr ha

theorem Life.run (l : List Turn) {s : St} (h : Life s) : Life (run s l) := by
  induction l generalizing s with
  | nil => exact h
  | cons u l ih =>
    refine ih ?_
    cases u with
    | main => exact h.main
    | thread j => exact h.thread j

/-! ### Nobody waits for ever -/

/-- how many steps a thread can make at most -/
def weight (h : Thread) : Nat := 4 * h.todo.length - (match h.stage with | .idle => 0 | .use => 1 | .askTest => 1 | .look => 2 | .glob => 2)

/-- how many steps can be made at most -/
def weigh (s : St) : Nat := s.main.length + (s.threads.map weight).sum

theorem sum_set (l : List Thread) (i : Nat) (h h' : Thread) (hi : l[i]? = some h) (hw : weight h' < weight h) :
    ((l.set i h').map weight).sum < (l.map weight).sum := by
  induction l generalizing i with
  | nil => simp at hi
  | cons x l ih =>
    cases i with
    | zero =>
      simp at hi
      subst hi
      simp only [List.set_cons_zero, List.map_cons, List.sum_cons]
      omega
    | succ i =>
      simp at hi
      have := ih i hi
      simp only [List.set_cons_succ, List.map_cons, List.sum_cons]
      omega

theorem thread_weigh (s : St) (i : Nat) (h : Thread) (hi : s.threads[i]? = some h) (ht : h.todo ≠ []) : weigh (step s (.thread i)) < weigh s := by
  have hc : ∃ x todo, h.todo = x :: todo := by
    cases hh : h.todo with
    | nil => exact absurd hh ht
    | cons x todo => exact ⟨x, todo, rfl⟩
  obtain ⟨x, todo, ht⟩ := hc
  simp only [step, threadStep, hi, ht]
  cases hl : look s x h.stage with
  | inl st =>
    simp only [Option.getD_some, weigh]
    have hw : weight { h with stage := st } < weight h := by
      simp only [weight, ht, List.length_cons]
      cases x with
      | err n =>
        cases hg : h.stage <;> rw [hg] at hl <;> simp only [look] at hl <;> (try split at hl) <;> cases hl
        simp
        omega
      | exc n =>
        cases hg : h.stage <;> rw [hg] at hl <;> simp only [look] at hl <;> (try split at hl) <;> (try split at hl) <;> cases hl
        all_goals
          simp
          omega
    rw [← ht]
    have := sum_set s.threads i h _ hi hw
    omega
  | inr o =>
    simp only [Option.getD_some, weigh]
    have hw : weight { h with todo := todo, stage := .idle } < weight h := by
      simp only [weight, ht, List.length_cons]
      cases h.stage <;> simp <;> omega
    have := sum_set s.threads i h _ hi hw
    omega

/-- all threads can finish -/
theorem finish_threads (n : Nat) (s : St) (hn : weigh s ≤ n) : ∃ l, (run s l).main = s.main ∧ ∀ h ∈ (run s l).threads, h.todo = [] := by
  induction n generalizing s with
  | zero =>
    refine ⟨[], rfl, fun h hh => ?_⟩
    cases ht : h.todo with
    | nil => rfl
    | cons x todo =>
      obtain ⟨i, hi⟩ := List.getElem?_of_mem hh
      have := thread_weigh s i h hi (by rw [ht]; simp)
      omega
  | succ n ih =>
    by_cases hf : ∀ h ∈ s.threads, h.todo = []
    · exact ⟨[], rfl, hf⟩
    · obtain ⟨h, hh⟩ := Classical.not_forall.1 hf
      obtain ⟨hm, ht⟩ := Classical.not_imp.1 hh
      obtain ⟨i, hi⟩ := List.getElem?_of_mem hm
      have := thread_weigh s i h hi ht
      obtain ⟨l, h1, h2⟩ := ih (step s (.thread i)) (by omega)
      exact ⟨.thread i :: l, h1.trans (thread_ctx s i).1, h2⟩

theorem finish (n : Nat) (s : St) (hn : s.main.length = n) : ∃ l, (run s l).main = [] ∧ ∀ h ∈ (run s l).threads, h.todo = [] := by
  induction n generalizing s with
  | zero =>
    obtain ⟨l, h1, h2⟩ := finish_threads _ s (Nat.le_refl _)
    exact ⟨l, by rw [h1]; exact List.eq_nil_of_length_eq_zero hn, h2⟩
  | succ n ih =>
    obtain ⟨l, h1, h2⟩ := finish_threads _ s (Nat.le_refl _)
    have hm : (run s l).main ≠ [] := by rw [h1]; intro e; rw [e] at hn; cases hn
    have hstep : (step (run s l) .main).main.length = n := by
      cases hc : (run s l).main with
      | nil => exact absurd hc hm
      | cons op rest =>
        have hl : rest.length = n := by rw [h1] at hc; rw [hc] at hn; simpa using hn
        simp only [step, hc]
        cases op with
        | join t =>
          have : (run s l).threads.all (fun h => h.owner != t || h.todo.isEmpty) = true := by
            rw [List.all_eq_true]
            intro h hh
            simp [h2 h hh]
          simp only [MOp.run, this, if_true, Option.getD_some]
          exact hl
        | _ => exact hl
    obtain ⟨l', h3, h4⟩ := ih _ hstep
    exact ⟨l ++ .main :: l', by simpa [run, List.foldl_append] using h3, by simpa [run, List.foldl_append] using h4⟩

/-! ### Reports between tests -/

theorem step_others (s : St) (i : Nat) (u : Turn) (hu : u ≠ .thread i) (h : Thread) (hi : s.threads[i]? = some h) : (step s u).threads[i]? = some h := by
  cases u with
  | thread j =>
    have hj : j ≠ i := fun e => hu (by rw [e])
    rcases thread_cases s j with e | ⟨g, x, todo, -, -, ⟨st, -, e⟩ | ⟨o, -, e⟩⟩ <;> rw [e]
    · exact hi
    · simpa [List.getElem?_set_ne hj] using hi
    · simpa [List.getElem?_set_ne hj] using hi
  | main =>
    simp only [step]
    cases hm : s.main with
    | nil => exact hi
    | cons op rest =>
      cases op with
      | spawn t ops =>
        show (s.threads ++ _)[i]? = some h
        have := (List.getElem?_eq_some_iff.1 hi).1
        rw [List.getElem?_append_left this]; exact hi
      | join t =>
        simp only [MOp.run]
        split <;> exact hi
      | _ => exact hi

theorem run_others (l : List Turn) (s : St) (i : Nat) (hl : .thread i ∉ l) (h : Thread) (hi : s.threads[i]? = some h) : (run s l).threads[i]? = some h := by
  induction l generalizing s with
  | nil => exact hi
  | cons u l ih => exact ih _ (fun hm => hl (by simp [hm])) (step_others s i u (fun e => hl (by simp [e])) h hi)

theorem Life.session_on {s : St} (h : Life s) (hp : .pop ∈ s.main) {i : Nat} {t : Thread} (hi : s.threads[i]? = some t) : s.session = true := by
  cases h with
  | start q hq hm ht ho hp => rw [ht] at hi; cases hi
  | running q hq hm hs hr ha => exact hs
  | over hm => rw [hm] at hp; cases hp

/-! ## C186 -/

/-- C186. Whatever the schedule, each report of each thread has exactly one outcome, and they come in the order of the reports. -/
theorem C186_once (ts : List Test) (l : List Turn) (i : Nat) (h : Thread) (hi : (run (session ts) l).threads[i]? = some h) :
    ((run (session ts) l).out.filter (fun x => x.1 == i)).map (·.2.1) ++ h.todo = h.ops :=
  ((Once.init ts).run l).once i h hi

/-- C186. If a test waits for the threads it starts, everything they report is recorded in the result of this test, and nowhere else: for any number of tests and
threads - also if other tests leave threads behind - and for any schedule. When the test is over, all they had to report is recorded. -/
theorem C186_waited_partial (ts₁ ts₂ : List Test) (t : Test) (hw : t.waits = true) (hst : t.started = true) (hd : ∀ u ∈ ts₁ ++ ts₂, u.id ≠ t.id) (l : List Turn)
    (i : Nat) (h : Thread) (hi : (run (session (ts₁ ++ t :: ts₂)) l).threads[i]? = some h) (ho : h.owner = t.id) :
    (∀ x ∈ (run (session (ts₁ ++ t :: ts₂)) l).out, x.1 = i → x.2.2 = .recorded (.test t.id)) ∧
    (.join t.id ∉ (run (session (ts₁ ++ t :: ts₂)) l).main → .setTest t.id ∉ (run (session (ts₁ ++ t :: ts₂)) l).main → h.todo = []) := by
  have hb : ∀ op ∈ t.threads.map (MOp.spawn t.id), ∃ ops, op = .spawn t.id ops := by
    intro op hop
    obtain ⟨o, -, rfl⟩ := List.mem_map.1 hop
    exact ⟨o, rfl⟩
  have h1 := ops_other ts₁ t.id (fun u hu => hd u (by simp [hu]))
  have h2 := ops_other ts₂ t.id (fun u hu => hd u (by simp [hu]))
  have hsuf : ∀ op ∈ [MOp.endResult, .restoreResult, .restoreTest] ++ ((ts₂.map Test.ops).flatten ++ [.pop]), ∀ ops, op ≠ .spawn t.id ops := by
    intro op hop ops
    simp only [List.mem_append, List.mem_cons, List.not_mem_nil, or_false] at hop
    rcases hop with (rfl | rfl | rfl) | hop | rfl
    · simp
    · simp
    · simp
    · exact (h2.1 op hop).2.2 ops
    · simp
  have hj : .join t.id ∉ [MOp.endResult, .restoreResult, .restoreTest] ++ ((ts₂.map Test.ops).flatten ++ [.pop]) := by
    simp only [List.mem_append, List.mem_cons, List.not_mem_nil, or_false, reduceCtorEq, false_or]
    exact h2.2
  have hP : Phase t.id (t.threads.map (MOp.spawn t.id)) ([MOp.endResult, .restoreResult, .restoreTest] ++ ((ts₂.map Test.ops).flatten ++ [.pop]))
      (session (ts₁ ++ t :: ts₂)) := by
    refine .pushing (.initResult :: (ts₁.map Test.ops).flatten) ?_ ?_ (fun g hg => by simp [session] at hg)
    · intro op hop
      rcases List.mem_cons.1 hop with rfl | hop
      · exact ⟨by simp, by simp, by simp⟩
      · exact h1.1 op hop
    · simp [session, Test.ops, hw, hst]
  have := hP.run hb hsuf hj l (Once.init _)
  generalize run (session (ts₁ ++ t :: ts₂)) l = s at this hi ⊢
  cases this with
  | within b' hb' w hm hg => exact ⟨(hg i h hi ho).1, fun hn => absurd (by rw [hm]; simp) hn⟩
  | after suf' hsuf' hj' hm hov hg => exact ⟨(hg i h hi ho).1, fun _ _ => hov h (List.mem_of_getElem? hi) ho⟩
  | pushing p hp hm hn => exact absurd ho (hn h (List.mem_of_getElem? hi))
  | opening p hp hm hn => exact absurd ho (hn h (List.mem_of_getElem? hi))
  | before p hp hs hm hn => exact absurd ho (hn h (List.mem_of_getElem? hi))
  | creating hs ht hm hn => exact absurd ho (hn h (List.mem_of_getElem? hi))
  | setting hs ht hk hm hn => exact absurd ho (hn h (List.mem_of_getElem? hi))

/-- C186. As long as the session is not over, no error that a thread adds with `slash.add_error` is lost: it is recorded in some result, whatever the schedule. -/
theorem C186_added (ts : List Test) (l : List Turn) (hp : .pop ∈ (run (session ts) l).main) (i n : Nat) (o : Out)
    (hx : (i, .err n, o) ∈ (run (session ts) l).out) : ∃ r, o = .recorded r := by
  have h : Life (run (session ts) l) := Life.run l (.start _ (safe_ops ts false) (.inl (by simp [session])) rfl rfl rfl)
  cases h with
  | start q hq hm ht ho hp => rw [ho] at hx; cases hx
  | running q hq hm hs hr ha => exact ha _ hx n rfl
  | over hm => rw [hm] at hp; cases hp

/-- C186. An exception that a thread handles between two tests is recorded in the result of the session - even if another test begins while it is handled -, if the session is not
over by then. -/
theorem C186_between (ts : List Test) (l l' : List Turn) (i n : Nat) (h : Thread) (rest : List Item) (hi : (run (session ts) l).threads[i]? = some h) (ht : h.todo = .exc n :: rest)
    (hs : h.stage = .idle) (hno : (run (session ts) l).test = none) (hl : .thread i ∉ l') (hp : .pop ∈ (run (session ts) (l ++ [.thread i, .thread i] ++ l')).main)
    (hp0 : .pop ∈ (run (session ts) l).main) :
    (run (session ts) (l ++ [.thread i, .thread i] ++ l' ++ [.thread i])).out = (run (session ts) (l ++ [.thread i, .thread i] ++ l')).out ++ [(i, .exc n, .recorded .global)] := by
  have hL : ∀ m, Life (run (session ts) m) := fun m => Life.run m (.start _ (safe_ops ts false) (.inl (by simp [session])) rfl rfl rfl)
  have e1 : run (session ts) (l ++ [.thread i, .thread i]) = { run (session ts) l with threads := (run (session ts) l).threads.set i { h with stage := .glob } } := by
    have h0 : run (session ts) (l ++ [.thread i, .thread i]) = step (step (run (session ts) l) (.thread i)) (.thread i) := by simp [run, List.foldl_append]
    have hon := (hL l).session_on hp0 hi
    rw [h0]
    generalize run (session ts) l = s at hi hno hon
    have hlt := (List.getElem?_eq_some_iff.1 hi).1
    have s1 : step s (.thread i) = { s with threads := s.threads.set i { h with stage := .askTest } } := by
      simp [step, threadStep, hi, ht, hs, look, hon]
    rw [s1]
    simp [step, threadStep, hlt, ht, look, hno]
  have hi1 : (run (session ts) (l ++ [.thread i, .thread i])).threads[i]? = some { h with stage := .glob } := by
    rw [e1]
    have hlt := (List.getElem?_eq_some_iff.1 hi).1
    simp [hlt]
  have hi2 : (run (session ts) (l ++ [.thread i, .thread i] ++ l')).threads[i]? = some { h with stage := .glob } := by
    have := run_others l' _ i hl _ hi1
    simpa [run, List.foldl_append] using this
  have hon := (hL _).session_on hp hi2
  have h0 : run (session ts) (l ++ [.thread i, .thread i] ++ l' ++ [.thread i]) = step (run (session ts) (l ++ [.thread i, .thread i] ++ l')) (.thread i) := by
    rw [run, List.foldl_append]; rfl
  rw [h0]
  generalize run (session ts) (l ++ [.thread i, .thread i] ++ l') = s at hi2 hon
  simp [step, threadStep, hi2, ht, look, hon]

/-- C186. Nobody waits for ever: from wherever a schedule has led, the session and all threads can still come to an end. -/
theorem C186_ends (ts : List Test) (l : List Turn) : ∃ l', (run (session ts) (l ++ l')).main = [] ∧ ∀ h ∈ (run (session ts) (l ++ l')).threads, h.todo = [] := by
  obtain ⟨l', h1, h2⟩ := finish _ (run (session ts) l) rfl
  exact ⟨l', by simpa [run, List.foldl_append] using h1, by simpa [run, List.foldl_append] using h2⟩

/-! ## Examples and what is violated -/

/-- turns of the main thread -/
def mains (n : Nat) : List Turn := List.replicate n .main
/-- turns of the thread -/
def turns (n : Nat) : List Turn := List.replicate n (.thread 0)

/-- two tests; the first one starts a thread with an exception and an error; `w`: whether it waits for it -/
def exTests (w : Bool) (ops : List Item) : List Test := [{ id := 1, threads := [ops], waits := w }, { id := 2 }]

/-- the main thread tries to go on, but has to wait -/
example : (run (session (exTests true [.exc 7, .err 8])) (mains 9 ++ turns 4 ++ mains 2 ++ turns 1 ++ mains 20)).out =
    [(0, .exc 7, .recorded (.test 1)), (0, .err 8, .recorded (.test 1))] ∧
    (run (session (exTests true [.exc 7, .err 8])) (mains 9 ++ turns 4 ++ mains 2 ++ turns 1 ++ mains 20)).main = [] := by decide

/-- the thread goes on between the two tests, and the second one begins before it is done -/
example : (run (session (exTests false [.exc 7])) (mains 10)).test = none ∧
    (run (session (exTests false [.exc 7])) (mains 10 ++ [.thread 0, .thread 0] ++ mains 3 ++ [.thread 0])).out = [(0, .exc 7, .recorded .global)] ∧
    (run (session (exTests false [.exc 7])) (mains 10 ++ [.thread 0, .thread 0] ++ mains 3 ++ [.thread 0])).test = some 2 := by decide

/-- C186, violated. What a thread reports that is not waited for is recorded for another test, the one that is running by then. -/
theorem C186_later_violated :
    (run (session (exTests false [.exc 7, .err 8])) (mains 13 ++ turns 5)).out = [(0, .exc 7, .recorded (.test 2)), (0, .err 8, .recorded (.test 2))] := by decide

/-- C186, violated. An exception that is handled just when another test is about to begin is recorded nowhere, and a KeyError is raised in its place. -/
theorem C186_begin_violated : (run (session (exTests false [.exc 7])) (mains 11 ++ turns 3)).out = [(0, .exc 7, .raised)] ∧
    .pop ∈ (run (session (exTests false [.exc 7])) (mains 11 ++ turns 3)).main := by decide

/-- C186, violated. An exception that is handled just when the test ends is recorded nowhere, and an AttributeError is raised in its place. -/
theorem C186_end_violated : (run (session (exTests false [.exc 7])) (mains 7 ++ turns 2 ++ mains 3 ++ turns 1)).out = [(0, .exc 7, .raised)] ∧
    .pop ∈ (run (session (exTests false [.exc 7])) (mains 7 ++ turns 2 ++ mains 3 ++ turns 1)).main := by decide

/-- C186, violated. After the end of the session everything is ignored. -/
theorem C186_over_violated : (run (session (exTests false [.exc 7, .err 8])) (mains 20 ++ turns 5)).out = [(0, .exc 7, .ignored), (0, .err 8, .ignored)] := by decide

/-- C186, violated. While the end of a test is over but its context is not left, an exception is recorded for the test, and an error that is added for the
session. -/
theorem C186_split_violated :
    (run (session (exTests false [.exc 7, .err 8])) (mains 8 ++ turns 5)).out = [(0, .exc 7, .recorded (.test 1)), (0, .err 8, .recorded .global)] := by decide

end Slash.ThrTests
