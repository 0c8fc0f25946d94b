import Verif.Lemmas.Watchdog
/-!
# The time-outs of parallel runs: property C179

`(TSys.start p).run k p l`: the state after any sequence `l` of things that happen in a parallel run with the time-outs `k`: time
passing, requests and deaths of workers, keep-alives arriving, looks of the manager of the parent. `elapsed l` is the time that
passes during `l`, `Heard k p c t l` says that a keep-alive of worker `c` arrives during `l` which starts in state `t`.
-/
namespace Slash.Par

/-- three tests, two of them with the same file, name and variation; two workers -/
def watched : Plan := { sigs := [5, 3, 5], workers := [{ id := 1 }, { id := 2 }], coll := fun _ => [5, 3, 5] }

/-- both workers connect, are heard of and agree on the tests; each gets a test -/
def bothRun : List TAct :=
  [.other (.act 1 {}), .beat 1, .other (.act 2 {}), .beat 2, .look, .other (.act 1 {}), .other (.act 2 {}), .other (.act 1 {}), .other (.act 2 {})]

/-- two seconds in which the first worker is heard of, and a look -/
def firstOnly : List TAct := [.pass 2, .beat 1, .look]

/-- C179: whatever happens with the clocks is among what can happen without them; so what holds for parallel runs in all
orders of what happens (C79 to C84 and others) holds with the time-outs of the code. -/
theorem C179_refines (k : Clock) (p : Plan) (l : List TAct) : ∃ as, ((TSys.start p).run k p l).sys = (Sys.start p).run p as :=
  run_sys k p l _

example : ((TSys.start watched).run {} watched bothRun).sys.hist =
    ((Sys.start watched).run watched [.act 1 {}, .keepAlive 1, .act 2 {}, .keepAlive 2, .act 1 {}, .act 2 {}, .act 1 {}, .act 2 {}]).hist := by decide +kernel

/-- Only reports tell the server that a worker is dead. -/
theorem told (p : Plan) (c : Nat) : ∀ (s : Sys) (a : Act), .clientFailure c ∈ (s.step p a).hist → .clientFailure c ∉ s.hist → a = .report c := by
  intro s a h1 h2
  rcases moved p s a with ⟨-, e, -⟩ | ⟨q, -, e, -⟩ | ⟨d, y, q, -, hq, -, e, -⟩
  · rw [e] at h1; exact absurd h1 h2
  · rw [e] at h1
    simp only [List.mem_append, List.mem_singleton] at h1
    have hq := h1.resolve_left h2
    subst hq
    cases a with
    | report d =>
      simp only [Sys.step] at e
      split at e
      · simp only [Sys.ask, List.append_cancel_left_eq, List.cons.injEq, Req.clientFailure.injEq, and_true] at e; rw [e]
      · simp at e
    | act d y =>
      exfalso
      simp only [Sys.step] at e
      split at e
      · cases hr : request d (p.coll d) y (s.loc d).phase with
        | none => rw [hr] at e; simp at e
        | some q =>
          rw [hr] at e
          simp only [Sys.ask, Sys.set, List.append_cancel_left_eq, List.cons.injEq, and_true] at e
          subst e
          cases hp : (s.loc d).phase <;> rw [hp] at hr <;> simp only [request, Option.some.injEq] at hr <;> cases hr
      · simp at e
    | die d => exfalso; simp only [Sys.step] at e; split at e <;> simp [Sys.set] at e
    | keepAlive d => exfalso; simp only [Sys.step] at e; split at e <;> simp [Sys.set] at e
    | stop => exfalso; simp only [Sys.step] at e; split at e <;> simp [Sys.ask] at e
    | interrupt => exfalso; simp [Sys.step, Sys.ask] at e
    | giveUp => exfalso; simp [Sys.step, Sys.ask] at e
    | problem d => exfalso; simp [Sys.step, Sys.ask] at e
    | exclude d i => exfalso; simp [Sys.step, Sys.ask] at e
    | force d i => exfalso; simp [Sys.step, Sys.ask] at e
  · rw [e] at h1
    simp only [List.mem_append, List.mem_singleton] at h1
    have hq' := h1.resolve_left h2
    subst hq'
    exfalso
    cases hp : (s.loc d).phase <;> rw [hp] at hq <;> simp only [request, Option.some.injEq] at hq <;> cases hq

/-- C179: only workers not heard of for longer than the time-out are taken for dead. If the server was told that a worker is
dead, then at some look before, the worker's last keep-alive was longer ago than the time-out. -/
theorem C179_reported (k : Clock) (p : Plan) (l : List TAct) (c : Nat)
    (h : .clientFailure c ∈ ((TSys.start p).run k p l).sys.hist) :
    ∃ a b r, l = a ++ .beat c :: (b ++ .look :: r) ∧ (((TSys.start p).run k p a).sys.loc c).phase.up = true ∧
      ¬ Heard k p c ((TSys.start p).run k p (a ++ [.beat c])) b ∧ k.comm < elapsed b := by
  induction l using snocInd with
  | nil => cases h
  | snoc l x ih =>
    by_cases h0 : .clientFailure c ∈ ((TSys.start p).run k p l).sys.hist
    · obtain ⟨a, b, r, e, h1, h2, h3⟩ := ih h0
      exact ⟨a, b, r ++ [x], by rw [e]; simp, h1, h2, h3⟩
    · rw [TSys.run_snoc] at h
      have told := told p c
      cases x with
      | pass n => exact absurd h h0
      | other a =>
        simp only [TSys.step] at h
        split at h
        · rename_i ha
          rw [told _ a h h0] at ha; cases ha
        · exact absurd h h0
      | beat d =>
        simp only [TSys.step, TSys.beat] at h
        split at h
        · exact absurd (told _ _ h h0) (by simp)
        · exact absurd h h0
      | interrupt =>
        simp only [TSys.step] at h
        split at h
        · exact absurd h h0
        · exact absurd (told _ _ h h0) (by simp)
      | stop =>
        simp only [TSys.step] at h
        split at h
        · exact absurd (told _ _ h h0) (by simp)
        · exact absurd h h0
      | look =>
        by_cases hl : ∀ u, ((TSys.start p).run k p l).seen c = some u → ((TSys.start p).run k p l).now - u ≤ k.comm
        · exact absurd ((look_fine hl).2.2 h) h0
        · cases hs : ((TSys.start p).run k p l).seen c with
          | none => rw [hs] at hl; exact absurd (fun u e => nomatch e) hl
          | some u =>
            obtain ⟨a, b, e, h1, h2, h3⟩ := seen_some (t := TSys.start p) rfl hs
            refine ⟨a, b, [], by rw [e]; simp, h1, h3, ?_⟩
            have : ¬ ((TSys.start p).run k p l).now - u ≤ k.comm := fun hle => hl (fun v hv => by rw [hs] at hv; injection hv with hv; rw [← hv]; exact hle)
            rw [run_now, e, elapsed_append, h2] at this
            simp only [elapsed] at this
            omega

/-- the second worker is not heard of for more than a minute while the first one is -/
example : .clientFailure 2 ∈ ((TSys.start watched).run {} watched (bothRun ++ (List.replicate 31 firstOnly).flatten)).sys.hist ∧
    .clientFailure 2 ∉ ((TSys.start watched).run {} watched (bothRun ++ (List.replicate 30 firstOnly).flatten)).sys.hist ∧
    .clientFailure 1 ∉ ((TSys.start watched).run {} watched (bothRun ++ (List.replicate 31 firstOnly).flatten)).sys.hist := by decide +kernel

/-- C179: after an interruption of the parent no more workers are taken for dead, however long they are silent, and the run is not
given up a second time. -/
theorem C179_interrupted (k : Clock) (p : Plan) (a b : List TAct) (c : Nat) :
    (.clientFailure c ∈ ((TSys.start p).run k p (a ++ .interrupt :: b)).sys.hist → .clientFailure c ∈ ((TSys.start p).run k p a).sys.hist) ∧
    ((TSys.start p).run k p (a ++ .interrupt :: b)).man = .left := by
  induction b using snocInd with
  | nil =>
    rw [TSys.run_snoc]
    simp only [TSys.step]
    split
    · rename_i h; exact ⟨id, h⟩
    · refine ⟨fun h => ?_, rfl⟩
      by_cases h0 : .clientFailure c ∈ ((TSys.start p).run k p a).sys.hist
      · exact h0
      · exact absurd (told p c _ _ h h0) (by simp)
  | snoc b x ih =>
    have e : a ++ .interrupt :: (b ++ [x]) = (a ++ .interrupt :: b) ++ [x] := by simp
    rw [e, TSys.run_snoc]
    generalize (TSys.start p).run k p (a ++ .interrupt :: b) = t at ih ⊢
    obtain ⟨h1, hm⟩ := ih
    have via : ∀ (y : Act), y ≠ .report c → .clientFailure c ∈ (t.sys.step p y).hist → .clientFailure c ∈ ((TSys.start p).run k p a).sys.hist := by
      intro y hy h
      by_cases h0 : .clientFailure c ∈ t.sys.hist
      · exact h1 h0
      · exact absurd (told p c _ _ h h0) hy
    cases x with
    | pass n => exact ⟨h1, hm⟩
    | other y =>
      simp only [TSys.step]
      split
      · rename_i hy
        exact ⟨via y (by rintro rfl; cases hy), hm⟩
      · exact ⟨h1, hm⟩
    | beat d =>
      simp only [TSys.step, TSys.beat]
      split
      · exact ⟨via _ (by simp), hm⟩
      · exact ⟨h1, hm⟩
    | look => simp only [TSys.step, TSys.look, hm]; exact ⟨h1, trivial⟩
    | interrupt => simp only [TSys.step, hm, if_true]; exact ⟨h1, trivial⟩
    | stop => simp only [TSys.step, hm, if_true]; exact ⟨via _ (by simp), trivial⟩

/-- the parent is interrupted: the silent worker is not looked for any more -/
example : .clientFailure 2 ∉ ((TSys.start watched).run {} watched (bothRun ++ .interrupt :: (List.replicate 31 firstOnly).flatten)).sys.hist := by
  decide +kernel

/-- C179: a worker that was heard of within the time-out is left alone by a look: it goes on as before, and counts as before,
however long its test takes. -/
theorem C179_spared (k : Clock) (p : Plan) (a b : List TAct) (c : Nat) (ha : (((TSys.start p).run k p a).sys.loc c).phase.up = true)
    (hb : elapsed b ≤ k.comm) :
    let t := (TSys.start p).run k p (a ++ .beat c :: b)
    (t.step k p .look).sys.loc c = t.sys.loc c ∧ (c ∈ (t.step k p .look).sys.srv.connected ↔ c ∈ t.sys.srv.connected) := by
  intro t
  have hfine : ∀ u, t.seen c = some u → t.now - u ≤ k.comm := by
    intro u hu
    have key : ∀ (b : List TAct) (t0 : TSys) (v : Nat), t0.seen c = some v → v ≤ t0.now → ∀ u, (t0.run k p b).seen c = some u → v ≤ u := by
      intro b
      induction b using snocInd with
      | nil => intro t0 v h1 _ u h2; change t0.seen c = some u at h2; rw [h1] at h2; injection h2 with h2; omega
      | snoc b x ih =>
        intro t0 v h1 hv u h2
        rw [TSys.run_snoc] at h2
        rcases (step_times k p (t0.run k p b) x).2 with ⟨-, e, -⟩ | ⟨d, -, -, -, e⟩
        · rw [e] at h2; exact ih t0 v h1 hv u h2
        · rw [e] at h2
          simp only at h2
          split at h2
          · injection h2 with h2; rw [run_now] at h2; omega
          · exact ih t0 v h1 hv u h2
    have e : t = (((TSys.start p).run k p a).step k p (.beat c)).run k p b := by
      change (TSys.start p).run k p (a ++ .beat c :: b) = _
      rw [TSys.run_append]; rfl
    have h0 : (((TSys.start p).run k p a).step k p (.beat c)).seen c = some (elapsed a) ∧ (((TSys.start p).run k p a).step k p (.beat c)).now = elapsed a := by
      simp only [TSys.step, TSys.beat, ha, if_true]
      rw [run_now]
      exact ⟨by simp [TSys.start], by simp [TSys.start]⟩
    rw [e] at hu ⊢
    have := key b _ _ h0.1 (by rw [h0.2]; exact Nat.le_refl _) u hu
    rw [run_now, h0.2]
    omega
  obtain ⟨h1, h2, -⟩ := look_fine (p := p) hfine
  exact ⟨h1, h2⟩

/-- exactly one minute after it was last heard of, a worker is still left alone, and killed by the next look -/
example : (((TSys.start watched).run {} watched (bothRun ++ (List.replicate 30 firstOnly).flatten)).sys.loc 2).phase = .running 1 1 ∧
    (((TSys.start watched).run {} watched (bothRun ++ (List.replicate 31 firstOnly).flatten)).sys.loc 2).phase = .dead := by decide +kernel

/-- C179: a silent worker is found. Once all workers have connected, a look at a worker whose last keep-alive is longer ago than
the time-out takes it out of the run: it is killed, the server does not count it any more, the test it was running has a result
saying that it was interrupted, and the run has a worker error, so that its exit status will not be zero. -/
theorem C179_found_partial (k : Clock) (p : Plan) (a b : List TAct) (c : Nat) (ha : (((TSys.start p).run k p a).sys.loc c).phase.up = true)
    (hs : ¬ Heard k p c ((TSys.start p).run k p (a ++ [.beat c])) b) (hb : k.comm < elapsed b) :
    let t := (TSys.start p).run k p (a ++ .beat c :: b)
    t.man ≠ .left → t.sys.srv.phase ≠ .waitClients → c ∈ t.sys.srv.connected →
      let t' := t.step k p .look
      c ∉ t'.sys.srv.connected ∧ (t'.sys.loc c).phase = .dead ∧ t'.sys.srv.workerError = true ∧
      ∀ i, getKey c t.sys.srv.executing = some (some i) → (i, .interrupted) ∈ t'.sys.srv.results := by
  intro t hm hw hc t'
  have e : t = ((TSys.start p).run k p (a ++ [.beat c])).run k p b := by
    rw [← TSys.run_append]; simp only [t, List.append_assoc, List.singleton_append]
  have h0 : ((TSys.start p).run k p (a ++ [.beat c])).seen c = some (elapsed a) := by
    rw [TSys.run_snoc]
    simp only [TSys.step, TSys.beat, ha, if_true]
    rw [run_now]
    simp [TSys.start]
  have h1 : t.seen c = some (elapsed a) := by rw [e, seen_unheard k p c _ b hs, h0]
  have h2 : t.now = elapsed a + elapsed b := by
    simp only [t]
    rw [run_now, elapsed_append]
    simp [TSys.start, elapsed]
  have h3 := look_down (k := k) (winv_run k p (a ++ .beat c :: b)) hm hw hc h1 (by rw [h2]; omega)
  exact ⟨h3.away, h3.dead, h3.error, h3.marked⟩

/-- the test the second worker was running is marked; the third test is not run any more -/
example : ((TSys.start watched).run {} watched (bothRun ++ (List.replicate 31 firstOnly).flatten)).sys.srv.results = [(1, .interrupted), (2, .notRun)] ∧
    ((TSys.start watched).run {} watched (bothRun ++ (List.replicate 31 firstOnly).flatten)).sys.srv.connected = [1] := by decide +kernel

/-- The manager looks at least once in any stretch of more than `P`. -/
def Regular (P : Nat) (l : List TAct) : Prop := ∀ u v w, l = u ++ v ++ w → P < elapsed v → .look ∈ v

theorem elapsed_split (l : List TAct) (n : Nat) (h : n < elapsed l) : ∃ u m v, l = u ++ .pass m :: v ∧ elapsed u ≤ n ∧ n < elapsed u + m := by
  induction l using snocInd with
  | nil => cases h
  | snoc l x ih =>
    by_cases h1 : n < elapsed l
    · obtain ⟨u, m, v, e, h2, h3⟩ := ih h1
      exact ⟨u, m, v ++ [x], by rw [e]; simp, h2, h3⟩
    · rw [elapsed_append] at h
      cases x with
      | pass m => exact ⟨l, m, [], rfl, by omega, by simp only [elapsed] at h; omega⟩
      | other a => simp only [elapsed] at h; omega
      | beat c => simp only [elapsed] at h; omega
      | look => simp only [elapsed] at h; omega
      | interrupt => simp only [elapsed] at h; omega
      | stop => simp only [elapsed] at h; omega

theorem regular_look {P : Nat} {l : List TAct} (hr : Regular P l) (n : Nat) (h : n + P < elapsed l) :
    ∃ u v, l = u ++ .look :: v ∧ n < elapsed u := by
  obtain ⟨u, m, v, e, h1, h2⟩ := elapsed_split l n (by omega)
  have hl : .look ∈ TAct.pass m :: v := by
    refine hr u (.pass m :: v) [] (by rw [e]; simp) ?_
    rw [e, elapsed_append] at h
    omega
  rw [List.mem_cons] at hl
  rcases hl with hl | hl
  · cases hl
  · obtain ⟨v1, v2, e2⟩ := List.append_of_mem hl
    refine ⟨u ++ .pass m :: v1, v2, by rw [e, e2]; simp, ?_⟩
    rw [elapsed_append]
    simp only [elapsed]
    omega

/-- C179: and it is found in time. If the manager looks at least every `P` (two seconds in the code, and what the looks
take), then at the latest `P` after the time-out of the worker is over, counted from its last keep-alive, the server does not count
the worker any more, or the parent has stopped watching. -/
theorem C179_in_time_partial (k : Clock) (p : Plan) (P : Nat) (a b : List TAct) (c : Nat)
    (ha : (((TSys.start p).run k p a).sys.loc c).phase.up = true) (hw : ((TSys.start p).run k p a).sys.srv.phase ≠ .waitClients)
    (hs : ¬ Heard k p c ((TSys.start p).run k p (a ++ [.beat c])) b) (hr : Regular P b) (hb : k.comm + P < elapsed b) :
    let t := (TSys.start p).run k p (a ++ .beat c :: b)
    c ∉ t.sys.srv.connected ∨ t.man = .left := by
  intro t
  by_cases hm : t.man = .left
  · exact .inr hm
  obtain ⟨u, v, e, hu⟩ := regular_look hr k.comm hb
  rw [e] at hs
  have hsu := (heard_append hs).1
  have et : t = (((TSys.start p).run k p (a ++ .beat c :: u)).step k p .look).run k p v := by
    simp only [t, e]
    rw [show a ++ TAct.beat c :: (u ++ TAct.look :: v) = (a ++ .beat c :: u) ++ .look :: v by simp, TSys.run_append]; rfl
  have hm1 : ((TSys.start p).run k p (a ++ .beat c :: u)).man ≠ .left := fun h => hm (by
    rw [et]; exact run_left k p v _ (step_left k p _ _ h))
  have e1 : (TSys.start p).run k p (a ++ .beat c :: u) = ((TSys.start p).run k p a).run k p (.beat c :: u) := TSys.run_append k p a _ _
  obtain ⟨as, h1⟩ := run_sys k p (.beat c :: u) ((TSys.start p).run k p a)
  rw [← e1] at h1
  have hw1 : ((TSys.start p).run k p (a ++ .beat c :: u)).sys.srv.phase ≠ .waitClients := by rw [h1]; exact sys_run_clients as hw
  have hf0 : (((TSys.start p).run k p a).sys.loc c).phase ≠ .fresh := by
    revert ha; cases (((TSys.start p).run k p a).sys.loc c).phase <;> simp [WPhase.up, WPhase.over]
  have hf1 : (((TSys.start p).run k p (a ++ .beat c :: u)).sys.loc c).phase ≠ .fresh := by rw [h1]; exact sys_run_fresh as hf0
  obtain ⟨bs, h2⟩ := run_sys k p v (((TSys.start p).run k p (a ++ .beat c :: u)).step k p .look)
  rw [← et] at h2
  obtain ⟨cs, -, h3⟩ := step_sys k p ((TSys.start p).run k p (a ++ .beat c :: u)) .look
  refine .inl ?_
  rw [h2]
  by_cases hc : c ∈ ((TSys.start p).run k p (a ++ .beat c :: u)).sys.srv.connected
  · obtain ⟨q1, q2, -⟩ := C179_found_partial k p a u c ha hsu hu hm1 hw1 hc
    exact sys_run_away bs (by rw [q2]; simp) q1
  · rw [h3]
    exact sys_run_away bs (sys_run_fresh cs hf1) (sys_run_away cs hf1 hc)

theorem regular_rounds (n : Nat) : Regular 2 (List.replicate n firstOnly).flatten := by
  have key : ∀ (n : Nat) (v w : List TAct), (List.replicate n firstOnly).flatten = v ++ w → .look ∉ v → elapsed v ≤ 2 := by
    intro n
    cases n with
    | zero =>
      intro v w e _
      cases v with
      | nil => simp [elapsed]
      | cons x v => simp at e
    | succ n =>
      intro v w e h
      rw [List.replicate_succ, List.flatten_cons] at e
      simp only [firstOnly, List.cons_append, List.nil_append] at e
      match v, e, h with
      | [], _, _ => simp [elapsed]
      | [x], e, _ => simp only [List.cons_append, List.nil_append, List.cons.injEq] at e; rw [← e.1]; simp [elapsed]
      | [x, y], e, _ => simp only [List.cons_append, List.nil_append, List.cons.injEq] at e; rw [← e.1, ← e.2.1]; simp [elapsed]
      | x :: y :: z :: v, e, h =>
        simp only [List.cons_append, List.nil_append, List.cons.injEq] at e
        rw [← e.2.2.1] at h
        simp at h
  intro u v w e h
  refine Decidable.byContradiction fun hn => ?_
  induction n generalizing u with
  | zero =>
    have : v = [] := by
      have e := congrArg List.length e
      simp at e
      cases v with
      | nil => rfl
      | cons x v => simp only [List.length_cons] at e; omega
    subst this; simp [elapsed] at h
  | succ n ih =>
    match u, e with
    | [], e => exact absurd (key (n + 1) v w (by simpa using e) hn) (by omega)
    | [x], e =>
      rw [List.replicate_succ, List.flatten_cons] at e
      simp only [firstOnly, List.cons_append, List.nil_append, List.cons.injEq] at e
      match v, e, h, hn with
      | [], _, h, _ => simp [elapsed] at h
      | [y], e, h, _ => simp only [List.cons_append, List.nil_append, List.cons.injEq] at e; rw [← e.2.1] at h; simp [elapsed] at h
      | y :: z :: v, e, _, hn => simp only [List.cons_append, List.nil_append, List.cons.injEq] at e; rw [← e.2.2.1] at hn; simp at hn
    | [x, y], e =>
      rw [List.replicate_succ, List.flatten_cons] at e
      simp only [firstOnly, List.cons_append, List.nil_append, List.cons.injEq] at e
      match v, e, h, hn with
      | [], _, h, _ => simp [elapsed] at h
      | z :: v, e, _, hn => simp only [List.cons_append, List.nil_append, List.cons.injEq] at e; rw [← e.2.2.1] at hn; simp at hn
    | x :: y :: z :: u, e =>
      rw [List.replicate_succ, List.flatten_cons] at e
      simp only [firstOnly, List.cons_append, List.nil_append, List.cons.injEq] at e
      exact ih u e.2.2.2

/-- the second worker is silent while both run; 64 seconds later it does not count any more, and the manager still watches the
first one -/
example : Regular 2 (List.replicate 32 firstOnly).flatten ∧ 60 + 2 < elapsed (List.replicate 32 firstOnly).flatten ∧
    2 ∉ ((TSys.start watched).run {} watched (bothRun ++ (List.replicate 32 firstOnly).flatten)).sys.srv.connected ∧
    ((TSys.start watched).run {} watched (bothRun ++ (List.replicate 32 firstOnly).flatten)).man = .watching :=
  ⟨regular_rounds 32, by decide, by decide +kernel, by decide +kernel⟩

/-- C179: the parent gives up for the reasons it should have only. If it left its loops with an exception, then it was
interrupted, or at some look before no keep-alive of any worker had arrived for longer than the time-out for this, or at some look
before the time for all workers to connect was over and they were not all connected, or one had failed to connect. -/
theorem C179_raised (k : Clock) (p : Plan) (hn : (p.workers.map (·.id)).Nodup) (hw : p.workers ≠ []) (l : List TAct)
    (h : ((TSys.start p).run k p l).sys.raised = true) :
    .interrupt ∈ l ∨
    (∃ a b r, l = a ++ b ++ .look :: r ∧ k.idle < elapsed b ∧ ∀ c, ¬ Heard k p c ((TSys.start p).run k p a) b) ∨
    (∃ a r, l = a ++ .look :: r ∧ k.connect * p.workers.length < elapsed a ∧
      (((TSys.start p).run k p a).sys.srv.connected.length < p.workers.length ∨
       ∃ w ∈ p.workers, (((TSys.start p).run k p a).sys.loc w.id).phase = .dead)) := by
  induction l using snocInd with
  | nil => cases h
  | snoc l x ih =>
    by_cases h0 : ((TSys.start p).run k p l).sys.raised = true
    · rcases ih h0 with h1 | ⟨a, b, r, e, h1, h2⟩ | ⟨a, r, e, h1, h2⟩
      · exact .inl (List.mem_append_left _ h1)
      · exact .inr (.inl ⟨a, b, r ++ [x], by rw [e]; simp, h1, h2⟩)
      · exact .inr (.inr ⟨a, r ++ [x], by rw [e]; simp, h1, h2⟩)
    · rw [TSys.run_snoc] at h
      have same : ∀ (s : Sys) (a : Act), a ≠ .giveUp → a ≠ .interrupt → (s.step p a).raised = s.raised := by
        intro s a h1 h2
        cases a with
        | act c y =>
          simp only [Sys.step]
          split
          · split <;> rfl
          · rfl
        | die c => simp only [Sys.step]; split <;> rfl
        | keepAlive c => simp only [Sys.step]; split <;> rfl
        | report c => simp only [Sys.step]; split <;> rfl
        | interrupt => exact absurd rfl h2
        | giveUp => exact absurd rfl h1
        | problem c => rfl
        | stop => simp only [Sys.step]; split <;> rfl
        | exclude c i => rfl
        | force c i => rfl
      have sameRun : ∀ (as : List Act) (s : Sys), .giveUp ∉ as → .interrupt ∉ as → (s.run p as).raised = s.raised := by
        intro as
        induction as with
        | nil => exact fun s _ _ => rfl
        | cons a as ih =>
          intro s h1 h2
          simp only [List.mem_cons, not_or] at h1 h2
          exact (ih _ h1.2 h2.2).trans (same s a (fun e => h1.1 e.symm) (fun e => h2.1 e.symm))
      cases x with
      | pass n => exact absurd h h0
      | other a =>
        simp only [TSys.step] at h
        split at h
        · rename_i ha
          rw [same _ a (by rintro rfl; cases ha) (by rintro rfl; cases ha)] at h
          exact absurd h h0
        · exact absurd h h0
      | beat d =>
        simp only [TSys.step, TSys.beat] at h
        split at h
        · rw [same _ _ (by simp) (by simp)] at h
          exact absurd h h0
        · exact absurd h h0
      | interrupt => exact .inl (by simp)
      | stop =>
        simp only [TSys.step] at h
        split at h
        · rw [same _ _ (by simp) (by simp)] at h
          exact absurd h h0
        · exact absurd h h0
      | look =>
        have watch : ∀ t : TSys, ((TSys.start p).run k p l).sys = t.sys → ((TSys.start p).run k p l).now = t.now →
            ((TSys.start p).run k p l).lastReq = t.lastReq → (t.watch k p).sys.raised = true →
            ∃ a b r, l ++ [.look] = a ++ b ++ .look :: r ∧ k.idle < elapsed b ∧ ∀ c, ¬ Heard k p c ((TSys.start p).run k p a) b := by
          intro t e1 e2 e3 h1
          unfold TSys.watch at h1
          obtain ⟨as, -, q2, q3, q4⟩ := checks_sys k p t.sys.srv.connected t
          obtain ⟨c1, c2, -, -⟩ := checks_frame k p t.sys.srv.connected t
          split at h1
          · simp only at h1
            split at h1
            · rename_i hi
              rw [c1, c2, ← e2, ← e3, run_now] at hi
              obtain ⟨a, b, e, h2, h3⟩ := lastReq_some k p (TSys.start p) l rfl
              refine ⟨a, b, [], by rw [e], ?_, h3⟩
              rw [h2, e, elapsed_append] at hi
              omega
            · rw [q4, sameRun as _ q2 q3, ← e1] at h1
              exact absurd h1 h0
          · rw [← e1] at h1; exact absurd h1 h0
        simp only [TSys.step] at h
        unfold TSys.look at h
        split at h
        · exact absurd h h0
        · split at h
          · rename_i hp
            split at h
            · rename_i hc
              rw [run_now] at hc
              refine .inr (.inr ⟨l, [], rfl, by simpa [TSys.start] using hc, ?_⟩)
              obtain ⟨as, e⟩ := run_sys k p l (TSys.start p)
              have hv : VInv p ((TSys.start p).run k p l).sys := by rw [e]; exact vinv_run p hn as
              rcases hv.clients hp with h1 | h1 | ⟨c, h1⟩
              · exact .inl h1
              · exact absurd h1 hw
              · obtain ⟨h2, h3⟩ := hv.hook c h1
                obtain ⟨w, hw1, hw2⟩ := List.mem_map.1 h3
                exact .inr ⟨w, hw1, by rw [hw2]; exact h2⟩
            · exact absurd h h0
          · exact .inr (.inl (watch { (TSys.start p).run k p l with man := .watching } rfl rfl rfl h))
        · exact .inr (.inl (watch _ rfl rfl rfl h))

/-- the second worker never connects; the manager gives up after more than twice ten seconds -/
example : let l := [.other (.act 1 {})] ++ (List.replicate 10 firstOnly).flatten
    ((TSys.start watched).run {} watched l).sys.raised = false ∧ ((TSys.start watched).run {} watched (l ++ firstOnly)).sys.raised = true := by decide +kernel

/-- nobody is heard of any more -/
example : let l := bothRun ++ (List.replicate 10 [.pass 2, .look]).flatten
    ((TSys.start watched).run {} watched l).sys.raised = false ∧ ((TSys.start watched).run {} watched (l ++ [.pass 2, .look])).sys.raised = true := by decide +kernel

/-- C179: the parent does not wait for ever for workers that are all silent: if no keep-alive arrives for longer than the
time-out for this, with the time all workers have to connect over too, then the next look is the last one. -/
theorem C179_gives_up (k : Clock) (p : Plan) (a b : List TAct) (hs : ∀ c, ¬ Heard k p c ((TSys.start p).run k p a) b)
    (hb : k.idle < elapsed b) (hc : k.connect * p.workers.length < elapsed (a ++ b)) :
    ((TSys.start p).run k p (a ++ b ++ [.look])).man = .left := by
  have hle : ∀ l, ((TSys.start p).run k p l).lastReq ≤ ((TSys.start p).run k p l).now := by
    intro l
    obtain ⟨a, b, e, h1, -⟩ := lastReq_some k p (TSys.start p) l rfl
    rw [h1, run_now, e, elapsed_append]; omega
  have h1 : ((TSys.start p).run k p (a ++ b)).lastReq ≤ elapsed a := by
    rw [TSys.run_append, lastReq_unheard k p _ b hs]
    have := hle a
    rw [run_now] at this
    simpa [TSys.start] using this
  have h2 : ((TSys.start p).run k p (a ++ b)).now = elapsed (a ++ b) := by rw [run_now]; simp [TSys.start]
  rw [TSys.run_snoc]
  have h3 := elapsed_append a b
  generalize (TSys.start p).run k p (a ++ b) = t at h1 h2
  have watch : ∀ t : TSys, k.idle < t.now - t.lastReq → (t.watch k p).man = .left := by
    intro t h
    unfold TSys.watch
    obtain ⟨c1, c2, -, -⟩ := checks_frame k p t.sys.srv.connected t
    split
    · simp only
      rw [if_pos (by rw [c1, c2]; exact h)]
      rfl
    · rfl
  simp only [TSys.step]
  unfold TSys.look
  split
  · assumption
  · split
    · rw [if_pos (by omega)]; rfl
    · exact watch _ (by simp only; omega)
  · exact watch _ (by omega)

/-- C179: and so it stops in time, if the manager looks at least every `P`. -/
theorem C179_gives_up_in_time (k : Clock) (p : Plan) (P : Nat) (a b : List TAct) (hs : ∀ c, ¬ Heard k p c ((TSys.start p).run k p a) b)
    (hr : Regular P b) (hb : k.idle + P < elapsed b) (hc : k.connect * p.workers.length + P < elapsed b) :
    ((TSys.start p).run k p (a ++ b)).man = .left := by
  obtain ⟨u, v, e, hu⟩ := regular_look hr (max k.idle (k.connect * p.workers.length)) (by omega)
  have h1 := C179_gives_up k p a u (fun c hh => hs c (by
    obtain ⟨a1, b1, e1, h1⟩ := hh
    exact ⟨a1, b1 ++ .look :: v, by rw [e, e1]; simp, h1⟩)) (by omega) (by rw [elapsed_append]; omega)
  rw [show a ++ b = (a ++ u ++ [.look]) ++ v by rw [e]; simp, TSys.run_append]
  exact run_left k p v _ h1

/-! ## Where a silent worker is not found -/

/-- C179, missing: a worker that dies after it connected and before its first keep-alive is never found, however long the
run waits, as long as another worker is heard of: for any number of looks, two seconds apart. -/
theorem C179_early_death_violated (n : Nat) :
    let l := [.other (.act 2 {}), .other (.die 2), .other (.act 1 {}), .beat 1, .look] ++ (List.replicate n firstOnly).flatten
    let t := (TSys.start watched).run {} watched l
    elapsed l = 2 * n ∧ (t.sys.loc 2).phase = .dead ∧ 2 ∈ t.sys.srv.connected ∧ t.man = .watching ∧ t.sys.srv.workerError = false := by
  intro l t
  have key : ∀ n, let t := (TSys.start watched).run {} watched ([.other (.act 2 {}), .other (.die 2), .other (.act 1 {}), .beat 1, .look] ++ (List.replicate n firstOnly).flatten)
      (t.sys.loc 2).phase = .dead ∧ t.sys.srv.connected = [2, 1] ∧ t.man = .watching ∧ t.sys.srv.workerError = false ∧
      t.seen 2 = none ∧ (t.sys.loc 1).phase = .connected := by
    intro n
    induction n with
    | zero => decide +kernel
    | succ n ih =>
      rw [List.replicate_succ', List.flatten_append, ← List.append_assoc, TSys.run_append]
      generalize (TSys.start watched).run {} watched ([.other (.act 2 {}), .other (.die 2), .other (.act 1 {}), .beat 1, .look] ++ (List.replicate n firstOnly).flatten) = t at ih ⊢
      obtain ⟨h1, h2, h3, h4, h5, h6⟩ := ih
      have e1 : TSys.run {} watched [firstOnly].flatten t = (((t.step {} watched (.pass 2)).step {} watched (.beat 1))).look {} watched := rfl
      have e2 : (t.step {} watched (.pass 2)).step {} watched (.beat 1) =
          { sys := t.sys.set 1 { t.sys.loc 1 with heard := true }, now := t.now + 2, lastReq := t.now + 2,
            seen := fun d => if d = 1 then some (t.now + 2) else t.seen d, man := t.man } := by
        simp [TSys.step, TSys.beat, h6, WPhase.up, WPhase.over, Sys.step]
      have e3 : (((t.step {} watched (.pass 2)).step {} watched (.beat 1))).look {} watched = (t.step {} watched (.pass 2)).step {} watched (.beat 1) := by
        rw [e2]
        simp [TSys.look, h3, TSys.watch, Sys.set, h2, shouldWait, TSys.check, h5]
      rw [e1, e3, e2]
      exact ⟨by rw [loc_set, if_neg (by decide)]; exact h1, h2, h3, h4, by simp [h5], by rw [loc_set, if_pos rfl]; exact h6⟩
  obtain ⟨h1, h2, h3, h4, -, -⟩ := key n
  refine ⟨?_, h1, by rw [h2]; simp, h3, h4⟩
  have this : ∀ m, elapsed (List.replicate m firstOnly).flatten = 2 * m := by
    intro m
    induction m with
    | zero => rfl
    | succ m ih => rw [List.replicate_succ, List.flatten_cons, elapsed_append, ih]; simp only [firstOnly, elapsed]; omega
  simp only [l, elapsed_append, this]
  simp [elapsed]

/-- C179, missing: as the time-out for the silence of all workers (20 seconds) is shorter than the one for a single worker (60),
the only worker of a run, or the last one, is not found when it dies: the parent gives up before, and the test the worker was
running has no result at all. -/
theorem C179_only_worker_violated :
    let p : Plan := { sigs := [5, 3], workers := [{ id := 1 }], coll := fun _ => [5, 3] }
    let l := [.other (.act 1 {}), .beat 1, .look, .other (.act 1 {}), .other (.act 1 {}), .other (.die 1)] ++ (List.replicate 11 [.pass 2, .look]).flatten
    let t := (TSys.start p).run {} p l
    getKey 1 t.sys.srv.executing = some (some 0) ∧ (t.sys.loc 1).phase = .dead ∧ t.man = .left ∧ t.sys.raised = true ∧ t.sys.srv.results = [] := by
  decide +kernel

end Slash.Par
