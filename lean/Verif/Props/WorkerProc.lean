import Verif.Model.WorkerProc
import Verif.Lemmas.Util
import Std.Data.String.ToNat
/-!
# C151: the command line of workers; C152: the parent does not leave workers behind
-/
namespace Slash.WP

/-! ## What is started -/

/-- The programs in a list of events, with the workers they are for. -/
def programs (evs : List Ev) : List (Arg × List Arg) := evs.filterMap Ev.program

theorem programs_append (a b : List Ev) : programs (a ++ b) = programs a ++ programs b := by
  simp [programs]

theorem killOne_programs (w : Wkr) : programs (killOne w).2.1 = [] := by
  unfold killOne
  split <;> (try split) <;> rfl

theorem killAll_programs (ws : List Wkr) : programs (killAll ws).2.1 = [] := by
  induction ws with
  | nil => rfl
  | cons w l ih =>
    have hw := killOne_programs w
    simp only [killAll]
    split
    · next h =>
      rw [h] at hw
      simp only [programs_append, hw, ih, List.nil_append]
    · next h =>
      rw [h] at hw
      exact hw

theorem waitOne_programs (w : Wkr) : programs (waitOne w).2.1 = [] := by
  unfold waitOne
  split <;> (try split) <;> (try split) <;> (try split) <;> rfl

theorem waitAll_programs (ws : List Wkr) : programs (waitAll ws).2.1 = [] := by
  induction ws with
  | nil => rfl
  | cons w l ih =>
    have hw := waitOne_programs w
    simp only [waitAll]
    split
    · next h =>
      rw [h] at hw
      simp only [programs_append, hw, ih, List.nil_append]
    · next h =>
      rw [h] at hw
      exact hw

theorem call_programs (env : Env) (c : Call) : programs (call env c).1 = [] := by
  unfold call
  split <;> rfl

theorem silenceEvs_programs (wid : Arg) (ws : List Wkr) : programs (silenceEvs wid ws) = [] := by
  unfold silenceEvs
  induction ws.filter (·.wid = wid) with
  | nil => rfl
  | cons w l ih =>
    simp only [List.flatMap_cons, programs_append, ih, List.append_nil]
    unfold timeoutOne
    split <;> rfl

theorem note_programs (env : Env) (n : Note) (s : St) : programs (note env n s).1.evs = programs s.evs := by
  unfold note
  split
  · rfl
  · next wid =>
    have := call_programs env (.clientFailure wid)
    split
    next evs o h =>
    rw [h] at this
    simp only at this
    simp only [programs_append, silenceEvs_programs, this, List.append_nil]

theorem notes_programs (env : Env) (l : List Note) (s : St) : programs (notes env l s).1.evs = programs s.evs := by
  induction l generalizing s with
  | nil => rfl
  | cons n l ih =>
    have hn := note_programs env n s
    simp only [notes]
    split
    · next h =>
      rw [h] at hn
      rw [ih, hn]
    · next h =>
      rw [h] at hn
      exact hn

theorem handleError_programs (env : Env) (s : St) : programs (handleError env s).1.evs = programs s.evs := by
  have hk := killAll_programs s.ws
  have hc := call_programs env .sessionError
  unfold handleError
  split
  · next h =>
    rw [h] at hk
    split
    all_goals
      next h2 =>
      rw [h2] at hc
      simp only at hk hc
      simp only [programs_append, hk, hc, List.append_nil]
  · next h =>
    rw [h] at hk
    simp only at hk
    simp only [programs_append, hk, List.append_nil]

theorem loops_programs (env : Env) (l : List Note) (e : End) (s : St) : programs (loops env l e s).1.evs = programs s.evs := by
  have hn := notes_programs env l s
  unfold loops
  split
  · next h =>
    rw [h] at hn
    split
    · exact hn
    · rw [handleError_programs]; exact hn
    · exact hn
  · next h =>
    rw [h] at hn
    exact hn

theorem interruptPart_programs (env : Env) (s : St) : programs (interruptPart env s).1.evs = programs s.evs := by
  have hk := killAll_programs s.ws
  have hc := call_programs env .sessionInterrupted
  unfold interruptPart
  split
  · next h =>
    rw [h] at hc
    split
    all_goals
      next h2 =>
      rw [h2] at hk
      simp only at hk hc
      simp only [programs_append, hk, hc, List.append_nil]
  · next h =>
    rw [h] at hc
    simp only at hc
    simp only [programs_append, hc, List.append_nil]

theorem stopPart_programs (env : Env) (s : St) : programs (stopPart env s).1.evs = programs s.evs := by
  have h1 := call_programs env .stop
  have h2 := call_programs env .stopKeepalive
  unfold stopPart
  split
  · next h =>
    rw [h] at h1
    split
    next h' =>
    rw [h'] at h2
    simp only at h1 h2
    simp only [programs_append, h1, h2, List.append_nil]
  · next h =>
    rw [h] at h1
    simp only at h1
    simp only [programs_append, h1, List.append_nil]

theorem finallyPart_programs (env : Env) (o : Out) (s : St) : programs (finallyPart env o s).1.evs = programs s.evs := by
  have hw := waitAll_programs s.ws
  unfold finallyPart
  split
  · next ws evs h =>
    rw [h] at hw
    simp only at hw
    have hs := stopPart_programs env { ws := ws, evs := s.evs ++ evs }
    simp only [programs_append, hw, List.append_nil] at hs
    split
    all_goals
      next h' =>
      rw [h'] at hs
      exact hs
  · next h =>
    rw [h] at hw
    simp only at hw
    simp only [programs_append, hw, List.append_nil]

theorem start_programs (env : Env) (l : List Note) (e : End) (s : St) :
    programs (start env l e s).1.evs = programs s.evs ++ programs (startAll env s.ws).2.1 := by
  have ht : programs (tryPart env l e s).1.evs = programs s.evs ++ programs (startAll env s.ws).2.1 := by
    unfold tryPart
    split
    · next h => rw [loops_programs, h, programs_append]
    · next h => rw [h, programs_append]
  unfold start
  split
  · next s' h =>
    rw [h] at ht
    split
    next h' =>
    have hi := interruptPart_programs env s'
    rw [h'] at hi
    rw [finallyPart_programs, hi]
    exact ht
  · next h =>
    rw [h] at ht
    rw [finallyPart_programs]
    exact ht

/-- What the worker is to run, if the hooks leave `f wid argv` as its arguments. -/
def wanted (c : Cmd) (p : Ports) (wid : Arg) : List Arg :=
  [c.exe, "-m".toList, "slash.frontend.main".toList, c.cmd, "--parallel-parent-session-id".toList, c.session] ++ c.args ++
    ["--parallel-worker-id".toList, wid, "--parallel-port".toList, p.port, "--keepalive-port".toList, p.keepalive,
      "--workers-error-dir".toList, p.errDir]

theorem startAll_programs (env : Env) (f : Arg → List Arg → List Arg)
    (hh : ∀ wid a, env.hook wid a = .ok (f wid a) ∨ ∃ e, env.hook wid a = .error e) (ws : List Wkr)
    (hk : ∀ w ∈ ws, (startEv { w with argv := f w.wid w.argv ++ env.ports.argv }).program = some (w.wid, f w.wid w.argv ++ env.ports.argv)) :
    programs (startAll env ws).2.1 <+: ws.map (fun w => (w.wid, f w.wid w.argv ++ env.ports.argv)) ∧
    ((startAll env ws).2.2 = .ok → programs (startAll env ws).2.1 = ws.map (fun w => (w.wid, f w.wid w.argv ++ env.ports.argv))) := by
  induction ws with
  | nil => exact ⟨List.prefix_rfl, fun _ => rfl⟩
  | cons w l ih =>
    have ⟨ih1, ih2⟩ := ih (fun w' h' => hk w' (List.mem_cons_of_mem _ h'))
    have hw := hk w List.mem_cons_self
    rcases hh w.wid w.argv with ho | ⟨e, he⟩
    · cases hs : env.spawn w.wid with
      | some e =>
        have : startOne env w = ({ w with argv := f w.wid w.argv ++ env.ports.argv }, [], .raised e) := by
          simp only [startOne, ho, hs]
        simp only [startAll, this]
        exact ⟨List.nil_prefix, fun h => by cases h⟩
      | none =>
        have : startOne env w = ({ w with argv := f w.wid w.argv ++ env.ports.argv, proc := some { beh := env.beh w.wid } },
            [startEv { w with argv := f w.wid w.argv ++ env.ports.argv }], .ok) := by
          simp only [startOne, ho, hs]
        simp only [startAll, this, programs_append, List.map_cons]
        have h1 : programs [startEv { w with argv := f w.wid w.argv ++ env.ports.argv }] = [(w.wid, f w.wid w.argv ++ env.ports.argv)] := by
          simp [programs, hw]
        rw [h1]
        refine ⟨(List.cons_prefix_cons).2 ⟨rfl, ih1⟩, fun h => ?_⟩
        rw [ih2 h]; rfl
    · have : startOne env w = (w, [], .raised e) := by simp only [startOne, he]
      simp only [startAll, this]
      exact ⟨List.nil_prefix, fun h => by cases h⟩

theorem startAll_ok (env : Env) (hh : ∀ wid a, ∃ a', env.hook wid a = .ok a') (hs : ∀ wid, env.spawn wid = none) (ws : List Wkr) :
    (startAll env ws).2.2 = .ok := by
  induction ws with
  | nil => rfl
  | cons w l ih =>
    obtain ⟨a', ha⟩ := hh w.wid w.argv
    have : startOne env w = ({ w with argv := a' ++ env.ports.argv, proc := some { beh := env.beh w.wid } },
        [startEv { w with argv := a' ++ env.ports.argv }], .ok) := by
      simp only [startOne, ha, hs]
    simp only [startAll, this]
    exact ih

/-- The id of the `i`-th worker. -/
def widOf (i : Nat) : Arg := Nat.toDigits 10 (i + 1)

theorem widOf_inj {i j : Nat} (h : widOf i = widOf j) : i = j := by
  have : i + 1 = j + 1 := by
    apply Nat.repr_injective
    unfold Nat.repr
    exact congrArg String.ofList h
  omega

/-- **C151** (worker processes): each worker is started at most once, in the order of their numbers, all of them if no hook of the
user's raises an exception and processes can be made. The arguments of a worker are those of the parent, unchanged, with the options
that say which worker it is. -/
theorem C151_process (env : Env) (c : Cmd) (n : Nat) (l : List Note) (e : End)
    (hh : ∀ wid a, env.hook wid a = .ok a ∨ ∃ x, env.hook wid a = .error x) :
    programs (start env l e (create c .process n)).1.evs <+: (List.range n).map (fun i => (widOf i, wanted c env.ports (widOf i))) ∧
    ((∀ wid a, ∃ a', env.hook wid a = .ok a') → (∀ wid, env.spawn wid = none) →
      programs (start env l e (create c .process n)).1.evs = (List.range n).map (fun i => (widOf i, wanted c env.ports (widOf i)))) ∧
    ((List.range n).map widOf).Nodup := by
  have key := startAll_programs env (fun _ a => a) hh (create c .process n).ws (by
    intro w hw
    obtain ⟨i, -, rfl⟩ := List.mem_map.1 hw
    rfl)
  have hm : (create c .process n).ws.map (fun w => (w.wid, w.argv ++ env.ports.argv)) =
      (List.range n).map (fun i => (widOf i, wanted c env.ports (widOf i))) := by
    simp only [create, List.map_map]
    apply List.map_congr_left
    intro i _
    simp [initArgv, Ports.argv, wanted, widOf]
  rw [hm] at key
  have h0 : programs (create c .process n).evs = [] := rfl
  rw [start_programs, h0, List.nil_append]
  refine ⟨key.1, fun h1 h2 => key.2 (startAll_ok env h1 h2 _), ?_⟩
  exact (List.pairwise_map.2 (List.nodup_range.imp fun h h' => h (widOf_inj h')))

/-- The hooks of the user may change the arguments of a worker; what they leave is what the worker is started with, and slash adds
only where its servers are. -/
theorem C151_hooks (env : Env) (c : Cmd) (n : Nat) (l : List Note) (e : End) (f : Arg → List Arg → List Arg)
    (hh : ∀ wid a, env.hook wid a = .ok (f wid a)) (hs : ∀ wid, env.spawn wid = none) :
    programs (start env l e (create c .process n)).1.evs = (List.range n).map (fun i => (widOf i,
      f (widOf i) ([c.exe, "-m".toList, "slash.frontend.main".toList, c.cmd, "--parallel-parent-session-id".toList, c.session] ++ c.args ++
        ["--parallel-worker-id".toList, widOf i]) ++
        ["--parallel-port".toList, env.ports.port, "--keepalive-port".toList, env.ports.keepalive,
          "--workers-error-dir".toList, env.ports.errDir])) := by
  have key := startAll_programs env f (fun wid a => .inl (hh wid a)) (create c .process n).ws (by
    intro w hw
    obtain ⟨i, -, rfl⟩ := List.mem_map.1 hw
    rfl)
  have h0 : programs (create c .process n).evs = [] := rfl
  rw [start_programs, h0, List.nil_append, key.2 (startAll_ok env (fun wid a => ⟨_, hh wid a⟩) hs _)]
  simp only [create, List.map_map]
  rfl

/-! ## Shell lines -/

/-- An argument a shell does not cut: not empty, without blanks and `;`. -/
def Plain (a : Arg) : Prop := a ≠ [] ∧ ' ' ∉ a ∧ ';' ∉ a

instance (a : Arg) : Decidable (Plain a) := inferInstanceAs (Decidable (_ ∧ _ ∧ _))

theorem words_plain (a rest cur : List Char) (h1 : ' ' ∉ a) (h2 : ';' ∉ a) : words cur (a ++ rest) = words (cur ++ a) rest := by
  induction a generalizing cur with
  | nil => simp
  | cons c a ih =>
    simp only [List.mem_cons, not_or] at h1 h2
    have hc1 : c ≠ ';' := fun h => h2.1 h.symm
    have hc2 : c ≠ ' ' := fun h => h1.1 h.symm
    simp only [List.cons_append, words, if_neg hc1, if_neg hc2]
    rw [ih _ h1.2 h2.2]
    simp

theorem words_join (argv : List Arg) (hp : ∀ a ∈ argv, Plain a) : words [] (join (argv ++ [";$SHELL".toList])) = argv := by
  induction argv with
  | nil => rfl
  | cons a l ih =>
    obtain ⟨h0, h1, h2⟩ := hp a List.mem_cons_self
    have hl := ih (fun b hb => hp b (List.mem_cons_of_mem _ hb))
    have hj : join ((a :: l) ++ [";$SHELL".toList]) = a ++ ' ' :: join (l ++ [";$SHELL".toList]) := by
      cases l <;> rfl
    rw [hj, words_plain a _ [] h1 h2]
    simp only [words, List.nil_append]
    rw [if_neg (by decide), if_pos trivial, if_neg h0, hl]

theorem digits_plain (i : Nat) : Plain (widOf i) := by
  refine ⟨?_, ?_, ?_⟩
  · intro h
    have := Nat.length_toDigits_pos (b := 10) (n := i + 1)
    unfold widOf at h
    rw [h] at this
    simp at this
  all_goals
    intro h
    have := Nat.isDigit_of_mem_toDigits (by omega) (by omega) h
    exact absurd this (by decide)

/-- **C151** (workers in `tmux`, partial): if no argument is empty or has a blank or a `;` in it, the shells of the windows run the same
programs. Missing: other arguments, see `C151_tmux_space_violated`. -/
theorem C151_tmux_partial (env : Env) (c : Cmd) (n : Nat) (l : List Note) (e : End)
    (hh : ∀ wid a, env.hook wid a = .ok a) (hs : ∀ wid, env.spawn wid = none)
    (hp : ∀ i, ∀ a ∈ wanted c env.ports (widOf i), Plain a) :
    programs (start env l e (create c .tmux n)).1.evs = (List.range n).map (fun i => (widOf i, wanted c env.ports (widOf i))) := by
  have hm : ∀ i, initArgv c (widOf i) ++ env.ports.argv = wanted c env.ports (widOf i) := by
    intro i
    simp [initArgv, Ports.argv, wanted, widOf]
  have key := startAll_programs env (fun _ a => a) (fun wid a => .inl (hh wid a)) (create c .tmux n).ws (by
    intro w hw
    obtain ⟨i, -, rfl⟩ := List.mem_map.1 hw
    show some (widOf i, words [] (join ((initArgv c (widOf i) ++ env.ports.argv) ++ [";$SHELL".toList]))) = some (widOf i, initArgv c (widOf i) ++ env.ports.argv)
    rw [words_join _ (by rw [hm]; exact hp i)])
  have h0 : programs (create c .tmux n).evs = [] := rfl
  rw [start_programs, h0, List.nil_append, key.2 (startAll_ok env (fun wid a => ⟨_, hh wid a⟩) hs _)]
  simp only [create, List.map_map]
  apply List.map_congr_left
  intro i _
  exact congrArg (Prod.mk _) (hm i)

/-- The ports of the examples. -/
def exPorts : Ports := ⟨"8000".toList, "8001".toList, "/tmp/e".toList⟩

/-- A parent that was started as `slash run --parallel 2 -k a.py`. -/
def exCmd : Cmd := ⟨"python".toList, "run".toList, ["--parallel".toList, "2".toList, "-k".toList, "a.py".toList], "s1".toList⟩

/-- A parent that was started as `slash run --parallel 2 "my tests"`. -/
def exSpace : Cmd := ⟨"python".toList, "run".toList, ["--parallel".toList, "2".toList, "my tests".toList], "s1".toList⟩

/-- The code does not quote the arguments for the shell: a directory with a blank in its name becomes two arguments of the workers
in `tmux`. Worker processes get it unchanged. -/
theorem C151_tmux_space_violated :
    ∃ (env : Env) (c : Cmd),
      (∃ a, programs (start env [] .done (create c .tmux 1)).1.evs = [(widOf 0, a)] ∧
        "my tests".toList ∉ a ∧ "my".toList ∈ a ∧ "tests".toList ∈ a) ∧
      (∃ a, programs (start env [] .done (create c .process 1)).1.evs = [(widOf 0, a)] ∧ "my tests".toList ∈ a) :=
  ⟨{ ports := exPorts }, exSpace, ⟨_, rfl, by decide +kernel, by decide +kernel, by decide +kernel⟩, ⟨_, rfl, by decide +kernel⟩⟩

/-- **C151** (options, partial): if `--` is not among the arguments, the worker takes everything it is given as an option or its
value. Missing: see `C151_dashes_violated`. -/
theorem C151_options_partial (c : Cmd) (p : Ports) (wid : Arg)
    (h : "--".toList ∉ [c.exe, c.cmd, c.session, wid, p.port, p.keepalive, p.errDir] ++ c.args) :
    optionsPart (wanted c p wid) = wanted c p wid := by
  have hn : "--".toList ∉ wanted c p wid := by
    intro hm
    apply h
    simp only [wanted, List.mem_append, List.mem_cons, List.not_mem_nil, or_false] at hm
    simp only [List.mem_append, List.mem_cons, List.not_mem_nil, or_false]
    have e1 : ("--".toList = "-m".toList) = False := by decide
    have e2 : ("--".toList = "slash.frontend.main".toList) = False := by decide
    have e3 : ("--".toList = "--parallel-parent-session-id".toList) = False := by decide
    have e4 : ("--".toList = "--parallel-worker-id".toList) = False := by decide
    have e5 : ("--".toList = "--parallel-port".toList) = False := by decide
    have e6 : ("--".toList = "--keepalive-port".toList) = False := by decide
    have e7 : ("--".toList = "--workers-error-dir".toList) = False := by decide
    rw [e1, e2, e3, e4, e5, e6, e7] at hm
    grind
  unfold optionsPart
  generalize wanted c p wid = l at hn
  induction l with
  | nil => rfl
  | cons a l ih =>
    simp only [List.mem_cons, not_or] at hn
    have ha : a ≠ "--".toList := fun h => hn.1 h.symm
    rw [List.takeWhile_cons_of_pos (by simpa using ha), ih hn.2]

/-- A parent that was started as `slash run --parallel 2 -- a.py`. -/
def exDashes : Cmd := ⟨"python".toList, "run".toList, ["--parallel".toList, "2".toList, "--".toList, "a.py".toList], "s1".toList⟩

/-- The code puts its options behind the arguments of the user: after a `--` they are no options any more. The worker is not told that
it is one, but that it is to have workers itself. -/
theorem C151_dashes_violated :
    ∃ c : Cmd, ∀ (p : Ports) (wid : Arg), "--parallel-worker-id".toList ∈ wanted c p wid ∧
      "--parallel-worker-id".toList ∉ optionsPart (wanted c p wid) ∧ "--parallel".toList ∈ optionsPart (wanted c p wid) := by
  refine ⟨exDashes, fun p wid => ?_⟩
  have h : optionsPart (wanted exDashes p wid) = ["python".toList, "-m".toList, "slash.frontend.main".toList, "run".toList,
      "--parallel-parent-session-id".toList, "s1".toList, "--parallel".toList, "2".toList] := by
    simp [optionsPart, wanted, exDashes]
  refine ⟨?_, ?_, ?_⟩
  · simp only [wanted, List.mem_append]
    exact .inr List.mem_cons_self
  · rw [h]; decide
  · rw [h]; decide

-- Two workers of `slash run --parallel 2 -k a.py`, as processes and in `tmux`.
example :
    programs (start { ports := exPorts } [] .done (create exCmd .process 2)).1.evs =
      [("1".toList, ["python", "-m", "slash.frontend.main", "run", "--parallel-parent-session-id", "s1", "--parallel", "2", "-k", "a.py",
          "--parallel-worker-id", "1", "--parallel-port", "8000", "--keepalive-port", "8001", "--workers-error-dir", "/tmp/e"].map String.toList),
       ("2".toList, ["python", "-m", "slash.frontend.main", "run", "--parallel-parent-session-id", "s1", "--parallel", "2", "-k", "a.py",
          "--parallel-worker-id", "2", "--parallel-port", "8000", "--keepalive-port", "8001", "--workers-error-dir", "/tmp/e"].map String.toList)] ∧
    programs (start { ports := exPorts } [.connected "1".toList] .done (create exCmd .tmux 2)).1.evs =
      programs (start { ports := exPorts } [] .done (create exCmd .process 2)).1.evs := by
  decide +kernel

/-! ## The end of the run -/

/-- A worker once started. -/
def started (env : Env) (w : Wkr) : Wkr :=
  { w with
    argv := (match env.hook w.wid w.argv with | .ok a => a | .error _ => w.argv) ++ env.ports.argv
    proc := some { beh := env.beh w.wid } }

theorem startAll_started (env : Env) (hh : ∀ wid a, ∃ a', env.hook wid a = .ok a') (hs : ∀ wid, env.spawn wid = none) (ws : List Wkr) :
    ∃ evs, startAll env ws = (ws.map (started env), evs, .ok) ∧ (∀ ev ∈ evs, ∃ w ∈ ws, ev = startEv (started env w)) := by
  induction ws with
  | nil => exact ⟨[], rfl, by simp⟩
  | cons w l ih =>
    obtain ⟨a', ha⟩ := hh w.wid w.argv
    obtain ⟨evs, he, hev⟩ := ih
    have : startOne env w = (started env w, [startEv (started env w)], .ok) := by
      simp only [startOne, ha, hs, started]
      rfl
    refine ⟨startEv (started env w) :: evs, ?_, ?_⟩
    · simp only [startAll, this, he, List.map_cons]
      rfl
    · intro ev hm
      rcases List.mem_cons.1 hm with rfl | hm
      · exact ⟨w, List.mem_cons_self, rfl⟩
      · obtain ⟨w', hw', rfl⟩ := hev ev hm
        exact ⟨w', List.mem_cons_of_mem _ hw', rfl⟩

/-- A worker after what the loops noticed. -/
def noticed (l : List Note) (w : Wkr) : Wkr :=
  { w with
    known := w.known || decide (Note.connected w.wid ∈ l)
    proc := w.proc.map fun p => { p with killed := p.killed || (w.kind = .process && decide (Note.silent w.wid ∈ l)) } }

/-- What is seen of it. -/
def noteEvs (ws : List Wkr) : Note → List Ev
  | .connected _ => []
  | .silent wid => (ws.filter fun w => w.wid = wid ∧ w.kind = .process).map (fun _ => Ev.kill wid) ++ [.call (.clientFailure wid)]

theorem silenceEvs_eq (wid : Arg) (ws : List Wkr) (hp : ∀ w ∈ ws, w.proc ≠ none) :
    silenceEvs wid ws = (ws.filter fun w => w.wid = wid ∧ w.kind = .process).map (fun _ => Ev.kill wid) := by
  induction ws with
  | nil => rfl
  | cons w l ih =>
    have ih := ih (fun w' h => hp w' (List.mem_cons_of_mem _ h))
    obtain ⟨p, hpw⟩ := Option.ne_none_iff_exists'.1 (hp w List.mem_cons_self)
    unfold silenceEvs at ih ⊢
    by_cases hw : w.wid = wid
    · rw [List.filter_cons_of_pos (by simpa using hw), List.flatMap_cons, ih]
      cases hk : w.kind with
      | process =>
        rw [List.filter_cons_of_pos (by simp [hw, hk])]
        simp [timeoutOne, hk, hpw, hw]
      | tmux =>
        rw [List.filter_cons_of_neg (by simp [hk])]
        simp [timeoutOne, hk, hpw]
    · rw [List.filter_cons_of_neg (by simpa using hw), ih, List.filter_cons_of_neg (by simp [hw])]

theorem notes_eq (env : Env) (hr : ∀ c, env.rpc c = none) (l : List Note) (ws : List Wkr) (evs : List Ev) (hp : ∀ w ∈ ws, w.proc ≠ none) :
    notes env l { ws := ws, evs := evs } =
      ({ ws := ws.map (noticed l), evs := evs ++ l.flatMap (noteEvs ws) }, .ok) := by
  induction l generalizing ws evs with
  | nil =>
    have : ws.map (noticed []) = ws := by
      rw [List.map_congr_left (g := id) (by
        intro w hw
        obtain ⟨wid, kind, argv, known, proc⟩ := w
        cases proc <;> simp [noticed])]
      simp
    simp [notes, this]
  | cons n l ih =>
    cases n with
    | connected wid =>
      simp only [notes, note]
      rw [ih]
      · have h1 : (ws.map (learn wid)).map (noticed l) = ws.map (noticed (.connected wid :: l)) := by
          rw [List.map_map]
          apply List.map_congr_left
          intro w _
          obtain ⟨w1, kind, argv, known, proc⟩ := w
          by_cases hw : w1 = wid <;> simp [learn, noticed, hw]
        have h2 : ∀ n, noteEvs (ws.map (learn wid)) n = noteEvs ws n := by
          intro n
          cases n with
          | connected _ => rfl
          | silent x =>
            simp only [noteEvs]
            congr 1
            rw [List.filter_map, List.map_map]
            have : ((fun w : Wkr => decide (w.wid = x ∧ w.kind = .process)) ∘ learn wid) = (fun w => decide (w.wid = x ∧ w.kind = .process)) := by
              funext w
              simp only [Function.comp, learn]
              split <;> rfl
            rw [this]
            rfl
        rw [h1]
        simp [List.flatMap_cons, noteEvs, funext h2]
      · intro w hw
        obtain ⟨w', hw', rfl⟩ := List.mem_map.1 hw
        have := hp w' hw'
        unfold learn
        split <;> exact this
    | silent wid =>
      simp only [notes, note, call, hr]
      rw [ih]
      · have h1 : (ws.map (silence wid)).map (noticed l) = ws.map (noticed (.silent wid :: l)) := by
          rw [List.map_map]
          apply List.map_congr_left
          intro w hw
          obtain ⟨p, hpw⟩ := Option.ne_none_iff_exists'.1 (hp w hw)
          obtain ⟨w1, kind, argv, known, proc⟩ := w
          simp only at hpw
          subst hpw
          by_cases hwid : w1 = wid <;> cases kind <;> simp [silence, timeoutOne, noticed, hwid]
        have h2 : ∀ n, noteEvs (ws.map (silence wid)) n = noteEvs ws n := by
          intro n
          cases n with
          | connected _ => rfl
          | silent x =>
            simp only [noteEvs]
            congr 1
            rw [List.filter_map, List.map_map]
            have : ((fun w : Wkr => decide (w.wid = x ∧ w.kind = .process)) ∘ silence wid) = (fun w => decide (w.wid = x ∧ w.kind = .process)) := by
              funext w
              simp only [Function.comp, silence, timeoutOne]
              split
              · split <;> simp_all
              · rfl
            rw [this]
            rfl
        rw [h1, silenceEvs_eq wid ws hp]
        simp [List.flatMap_cons, noteEvs, funext h2]
      · intro w hw
        obtain ⟨w', hw', rfl⟩ := List.mem_map.1 hw
        have := hp w' hw'
        unfold silence timeoutOne
        split
        · split
          · simp
          · exact this
        · exact this

/-- A worker that was sent `SIGTERM`. -/
def termed (w : Wkr) : Wkr := { w with proc := w.proc.map fun p => { p with termed := true } }

theorem killAll_eq (ws : List Wkr) (hp : ∀ w ∈ ws, w.proc ≠ none ∧ (w.kind = .tmux → w.known = true)) :
    killAll ws = (ws.map termed, ws.map (fun w => .term w.wid), .ok) := by
  induction ws with
  | nil => rfl
  | cons w l ih =>
    have ih := ih (fun w' h => hp w' (List.mem_cons_of_mem _ h))
    have ⟨h1, h2⟩ := hp w List.mem_cons_self
    obtain ⟨p, hpw⟩ := Option.ne_none_iff_exists'.1 h1
    have : killOne w = (termed w, [.term w.wid], .ok) := by
      obtain ⟨w1, kind, argv, known, proc⟩ := w
      simp only at hpw h2
      subst hpw
      cases kind
      · simp [killOne, termed]
      · simp [killOne, termed, h2 rfl]
    simp only [killAll, this, ih]
    rfl

/-- A worker whose end was seen. -/
def overed (w : Wkr) : Wkr := { w with proc := w.proc.map fun p => { p with over := true } }

theorem waitAll_eq (ws : List Wkr)
    (hp : ∀ w ∈ ws, ∃ p, w.proc = some p ∧ p.beh.interrupts = false ∧ p.ends = true ∧ (w.kind = .tmux → w.known = true ∧ p.beh.soon = true)) :
    waitAll ws = (ws.map overed, ws.map (fun w => .over w.wid), .ok) := by
  induction ws with
  | nil => rfl
  | cons w l ih =>
    have ih := ih (fun w' h => hp w' (List.mem_cons_of_mem _ h))
    obtain ⟨p, h1, h2, h3, h4⟩ := hp w List.mem_cons_self
    have : waitOne w = (overed w, [.over w.wid], .ok) := by
      obtain ⟨w1, kind, argv, known, proc⟩ := w
      simp only at h1 h4
      subst h1
      cases kind
      · simp [waitOne, overed, h2, h3]
      · simp [waitOne, overed, h2, h3, h4 rfl]
    simp only [waitAll, this, ih]
    rfl

/-- Whether the workers are sent `SIGTERM` when the loops end like this: a time-out or an interruption. -/
def End.stops : End → Bool
  | .error | .raised .interruption => true
  | _ => false

/-- What the run as a whole ends with. -/
def End.out : End → Out
  | .done => .ok
  | .error => .raised .timeout
  | .raised x => .raised x

/-- What is seen when the loops end. -/
def endEvs (ws : List Wkr) : End → List Ev
  | .error => ws.map (fun w => .term w.wid) ++ [.call .sessionError]
  | .raised .interruption => .call .sessionInterrupted :: ws.map (fun w => .term w.wid)
  | _ => []

/-- The worker ends, if not by itself because of what the parent does in the run. -/
def Willing (env : Env) (l : List Note) (e : End) (w : Wkr) : Prop :=
  (env.beh w.wid).interrupts = false ∧
  match w.kind with
  | .process => (env.beh w.wid).alone = true ∨ (e.stops = true ∧ (env.beh w.wid).onTerm = true) ∨ .silent w.wid ∈ l
  | .tmux => .connected w.wid ∈ l ∧ (env.beh w.wid).soon = true ∧
      ((env.beh w.wid).alone = true ∨ (e.stops = true ∧ (env.beh w.wid).onTerm = true))

/-- A worker at the end of the run. -/
def final (env : Env) (l : List Note) (e : End) (w : Wkr) : Wkr :=
  overed (if e.stops then termed (noticed l (started env w)) else noticed l (started env w))

theorem finallyPart_eq (env : Env) (hr : ∀ c, env.rpc c = none) (o : Out) (ws : List Wkr) (evs : List Ev)
    (hp : ∀ w ∈ ws, ∃ p, w.proc = some p ∧ p.beh.interrupts = false ∧ p.ends = true ∧ (w.kind = .tmux → w.known = true ∧ p.beh.soon = true)) :
    finallyPart env o { ws := ws, evs := evs } =
      ({ ws := ws.map overed, evs := evs ++ ws.map (fun w => .over w.wid) ++ [.call .stop, .call .stopKeepalive] }, o) := by
  simp only [finallyPart, waitAll_eq ws hp, stopPart, call, hr]
  simp

/-- **C152** (partial): if the workers can all be started, the servers can be reached, each worker ends by itself or when it is asked to,
those in `tmux` connected to the server and end soon, and the parent is not interrupted again, then the run of the parent is over
with what ended it, the end of each worker was seen, and then both servers were told to stop. When the parent gave up because of a time-out, or was
interrupted, every worker was sent `SIGTERM`. Missing: see the theorems below. -/
theorem C152_ended_partial (env : Env) (l : List Note) (e : End) (ws : List Wkr)
    (hh : ∀ wid a, ∃ a', env.hook wid a = .ok a') (hs : ∀ wid, env.spawn wid = none) (hr : ∀ c, env.rpc c = none)
    (hw : ∀ w ∈ ws, Willing env l e w) :
    (start env l e { ws := ws }).2 = e.out ∧
    (∀ w ∈ (start env l e { ws := ws }).1.ws, ∃ p, w.proc = some p ∧ p.over = true) ∧
    (start env l e { ws := ws }).1.ws.map (·.wid) = ws.map (·.wid) ∧
    ∃ starts, (∀ ev ∈ starts, ∃ w ∈ ws, ev = startEv (started env w)) ∧
      (start env l e { ws := ws }).1.evs = starts ++ l.flatMap (noteEvs ws) ++ endEvs ws e ++ ws.map (fun w => .over w.wid) ++
        [.call .stop, .call .stopKeepalive] := by
  obtain ⟨starts, hst, hsp⟩ := startAll_started env hh hs ws
  have hn := notes_eq env hr l (ws.map (started env)) starts (by
    intro w hw
    obtain ⟨w', -, rfl⟩ := List.mem_map.1 hw
    simp [started])
  have hne : l.flatMap (noteEvs (ws.map (started env))) = l.flatMap (noteEvs ws) := by
    congr 1
    funext n
    cases n with
    | connected _ => rfl
    | silent x =>
      simp only [noteEvs]
      congr 1
      rw [List.filter_map, List.map_map]
      rfl
  rw [hne] at hn
  have hwid : ∀ w, (noticed l (started env w)).wid = w.wid := fun _ => rfl
  have hk := killAll_eq ((ws.map (started env)).map (noticed l))
  have hkill : e.stops = true → killAll ((ws.map (started env)).map (noticed l)) =
      (((ws.map (started env)).map (noticed l)).map termed, ws.map (fun w => .term w.wid), .ok) := by
    intro he
    rw [hk]
    · simp only [List.map_map]
      rfl
    · intro w hm
      rw [List.map_map] at hm
      obtain ⟨w', hw', rfl⟩ := List.mem_map.1 hm
      refine ⟨by simp [noticed, started], fun hkd => ?_⟩
      have := hw w' hw'
      have hkd' : w'.kind = .tmux := hkd
      simp only [Willing, hkd'] at this
      simp [noticed, started, this.2.1]
  have hfin : ∀ o evs, finallyPart env o { ws := ((ws.map (started env)).map (noticed l)).map (if e.stops then termed else id), evs := evs } =
      ({ ws := ws.map (final env l e), evs := evs ++ ws.map (fun w => .over w.wid) ++ [.call .stop, .call .stopKeepalive] }, o) := by
    intro o evs
    rw [finallyPart_eq env hr]
    · simp only [List.map_map]
      have e1 : ∀ w, overed ((if e.stops = true then termed else id) (noticed l (started env w))) = final env l e w := by
        intro w
        simp only [final]
        split <;> rfl
      have e2 : ∀ w, ((if e.stops = true then termed else id) (noticed l (started env w))).wid = w.wid := by
        intro w
        split <;> rfl
      have e3 : ws.map ((((overed ∘ (if e.stops = true then termed else id)) ∘ noticed l) ∘ started env)) = ws.map (final env l e) :=
        List.map_congr_left fun w _ => e1 w
      have e4 : ws.map (((fun w : Wkr => Ev.over w.wid) ∘ (if e.stops = true then termed else id)) ∘ noticed l ∘ started env) = ws.map (fun w => .over w.wid) :=
        List.map_congr_left fun w _ => congrArg Ev.over (e2 w)
      first
        | rw [show ws.map (overed ∘ (if e.stops = true then termed else id) ∘ noticed l ∘ started env) = _ from e3,
            show ws.map ((fun w : Wkr => Ev.over w.wid) ∘ (if e.stops = true then termed else id) ∘ noticed l ∘ started env) = _ from e4]
        | skip
    · intro w hm
      simp only [List.map_map] at hm
      obtain ⟨w', hw', rfl⟩ := List.mem_map.1 hm
      have h := hw w' hw'
      obtain ⟨h0, h⟩ := h
      have hproc : ((if e.stops = true then termed else id) (noticed l (started env w'))).proc =
          some { beh := env.beh w'.wid, termed := e.stops, killed := w'.kind = .process && decide (Note.silent w'.wid ∈ l) } := by
        cases e.stops <;> rfl
      have hkind : ((if e.stops = true then termed else id) (noticed l (started env w'))).kind = w'.kind := by
        cases e.stops <;> rfl
      have hknown : ((if e.stops = true then termed else id) (noticed l (started env w'))).known = (w'.known || decide (Note.connected w'.wid ∈ l)) := by
        cases e.stops <;> rfl
      refine ⟨_, hproc, h0, ?_, ?_⟩
      · simp only [Proc.ends, Bool.or_eq_true, Bool.and_eq_true, decide_eq_true_eq]
        cases hkd : w'.kind <;> simp only [hkd] at h <;> grind
      · intro hkd
        simp only [Function.comp, hkind] at hkd
        simp only [hkd] at h
        simp only [Function.comp, hknown]
        exact ⟨by simp [h.1], h.2.1⟩
  have main : start env l e { ws := ws } = ({ ws := ws.map (final env l e), evs := (starts ++ l.flatMap (noteEvs ws) ++ endEvs ws e ++
      (ws.map (fun w => .over w.wid)) ++ [.call .stop, .call .stopKeepalive]) }, e.out) := by
    cases e with
    | done =>
      have := hfin .ok (starts ++ l.flatMap (noteEvs ws))
      simp only [End.stops, Bool.false_eq_true, if_false, List.map_id] at this
      simp only [start, tryPart, hst, loops, List.nil_append, hn, this, endEvs, List.append_nil, End.out]
    | error =>
      have := hfin (.raised .timeout) (starts ++ l.flatMap (noteEvs ws) ++ ws.map (fun w => .term w.wid) ++ [.call .sessionError])
      simp only [End.stops, if_true] at this
      simp only [start, tryPart, hst, loops, List.nil_append, hn, handleError, hkill rfl, call, hr, this, endEvs, End.out]
      simp only [List.append_assoc]
    | raised x =>
      by_cases hx : x = .interruption
      · subst hx
        have := hfin (.raised .interruption) (starts ++ l.flatMap (noteEvs ws) ++ [.call .sessionInterrupted] ++ ws.map (fun w => .term w.wid))
        simp only [End.stops, if_true] at this
        simp only [start, tryPart, hst, loops, List.nil_append, hn, interruptPart, hkill rfl, call, hr, this, endEvs, End.out]
        simp only [List.append_assoc, List.cons_append, List.nil_append]
      · have := hfin (.raised x) (starts ++ l.flatMap (noteEvs ws))
        have hst' : (End.raised x).stops = false := by cases x <;> first | rfl | exact absurd rfl hx
        have hev : endEvs ws (.raised x) = [] := by cases x <;> first | rfl | exact absurd rfl hx
        simp only [hst', Bool.false_eq_true, if_false, List.map_id] at this
        have hst2 : ∀ (s : St), (match (s, Out.raised x) with
            | (s', .raised .interruption) => (match interruptPart env s' with | (s'', o) => finallyPart env o s'')
            | (s', o) => finallyPart env o s') = finallyPart env (.raised x) s := by
          intro s
          cases x <;> first | rfl | exact absurd rfl hx
        simp only [start, tryPart, hst, loops, List.nil_append, hn]
        rw [hev, List.append_nil]
        cases x <;> first | exact this | exact absurd rfl hx
  rw [main]
  refine ⟨rfl, ?_, ?_, starts, hsp, rfl⟩
  · intro w hm
    obtain ⟨w', -, rfl⟩ := List.mem_map.1 hm
    refine ⟨{ beh := env.beh w'.wid, termed := e.stops, killed := w'.kind = .process && decide (Note.silent w'.wid ∈ l), over := true }, ?_, rfl⟩
    simp only [final, overed]
    cases e.stops <;> rfl
  · rw [List.map_map]
    apply List.map_congr_left
    intro w _
    simp only [Function.comp, final]
    split <;> rfl

/-! ## Whatever happens -/

/-- Seen to be over. -/
def Over (w : Wkr) : Prop := ∃ p, w.proc = some p ∧ p.over = true

theorem waitOne_over (w : Wkr) (hk : w.kind = .process) : (waitOne w).2.2 = .ok → Over (waitOne w).1 := by
  unfold waitOne
  rw [hk]
  cases w.proc with
  | none => simp
  | some p =>
    simp only
    split
    · simp
    · split
      · exact fun _ => ⟨_, rfl, rfl⟩
      · simp

theorem waitAll_over (ws : List Wkr) (hk : ∀ w ∈ ws, w.kind = .process) (h : (waitAll ws).2.2 = .ok) : ∀ w ∈ (waitAll ws).1, Over w := by
  induction ws with
  | nil => simp [waitAll]
  | cons w l ih =>
    have hw := waitOne_over w (hk w List.mem_cons_self)
    have ih := ih (fun w' h' => hk w' (List.mem_cons_of_mem _ h'))
    rcases hone : waitOne w with ⟨w', evs, o⟩
    rw [hone] at hw
    cases o with
    | ok =>
      rcases hall : waitAll l with ⟨l', evs', o'⟩
      simp only [waitAll, hone, hall] at h ⊢
      rw [hall] at ih
      intro x hx
      rcases List.mem_cons.1 hx with rfl | hx
      · exact hw rfl
      · exact ih h x hx
    | raised e => simp [waitAll, hone] at h
    | hangs => simp [waitAll, hone] at h

/-- An event that is no call to stop. -/
def NoStop (evs : List Ev) : Prop := Ev.call .stop ∉ evs

theorem noStop_append {a b : List Ev} : NoStop (a ++ b) ↔ NoStop a ∧ NoStop b := by
  simp [NoStop]

theorem noStop_nil : NoStop [] := by simp [NoStop]

theorem killOne_noStop (w : Wkr) : NoStop (killOne w).2.1 := by
  unfold killOne
  split <;> (try split) <;> simp [NoStop]

theorem killOne_kind (w : Wkr) : (killOne w).1.kind = w.kind := by
  unfold killOne
  split <;> (try split) <;> rfl

theorem killAll_inv (ws : List Wkr) : NoStop (killAll ws).2.1 ∧ (killAll ws).1.map (·.kind) = ws.map (·.kind) := by
  induction ws with
  | nil => exact ⟨noStop_nil, rfl⟩
  | cons w l ih =>
    have h1 := killOne_noStop w
    have h2 := killOne_kind w
    rcases hone : killOne w with ⟨w', evs, o⟩
    rw [hone] at h1 h2
    rcases hall : killAll l with ⟨l', evs', o'⟩
    rw [hall] at ih
    cases o with
    | ok =>
      simp only [killAll, hone, hall, List.map_cons]
      exact ⟨noStop_append.2 ⟨h1, ih.1⟩, by rw [h2, ih.2]⟩
    | raised e =>
      simp only [killAll, hone, List.map_cons]
      exact ⟨h1, by rw [h2]⟩
    | hangs =>
      simp only [killAll, hone, List.map_cons]
      exact ⟨h1, by rw [h2]⟩

theorem startOne_inv (env : Env) (w : Wkr) : NoStop (startOne env w).2.1 ∧ (startOne env w).1.kind = w.kind := by
  unfold startOne
  split
  · exact ⟨noStop_nil, rfl⟩
  · split
    · exact ⟨noStop_nil, rfl⟩
    · refine ⟨?_, rfl⟩
      simp only [NoStop, List.mem_singleton]
      unfold startEv
      split <;> simp

theorem startAll_inv (env : Env) (ws : List Wkr) : NoStop (startAll env ws).2.1 ∧ (startAll env ws).1.map (·.kind) = ws.map (·.kind) := by
  induction ws with
  | nil => exact ⟨noStop_nil, rfl⟩
  | cons w l ih =>
    obtain ⟨h1, h2⟩ := startOne_inv env w
    rcases hone : startOne env w with ⟨w', evs, o⟩
    rw [hone] at h1 h2
    rcases hall : startAll env l with ⟨l', evs', o'⟩
    rw [hall] at ih
    cases o with
    | ok =>
      simp only [startAll, hone, hall, List.map_cons]
      exact ⟨noStop_append.2 ⟨h1, ih.1⟩, by rw [h2, ih.2]⟩
    | raised e =>
      simp only [startAll, hone, List.map_cons]
      exact ⟨h1, by rw [h2]⟩
    | hangs =>
      simp only [startAll, hone, List.map_cons]
      exact ⟨h1, by rw [h2]⟩

theorem waitAll_noStop (ws : List Wkr) : NoStop (waitAll ws).2.1 := by
  have hone : ∀ w, NoStop (waitOne w).2.1 := by
    intro w
    unfold waitOne
    split <;> (try split) <;> (try split) <;> (try split) <;> simp [NoStop]
  induction ws with
  | nil => exact noStop_nil
  | cons w l ih =>
    have h1 := hone w
    rcases ho : waitOne w with ⟨w', evs, o⟩
    rw [ho] at h1
    rcases hall : waitAll l with ⟨l', evs', o'⟩
    rw [hall] at ih
    cases o with
    | ok =>
      simp only [waitAll, ho, hall]
      exact noStop_append.2 ⟨h1, ih⟩
    | raised e => simpa only [waitAll, ho] using h1
    | hangs => simpa only [waitAll, ho] using h1

theorem call_evs (env : Env) (c : Call) : (call env c).1 = [.call c] := by
  unfold call
  split <;> rfl

/-- The servers run and the kinds of the workers are what they were. -/
def Before (ks : List Kind) (s : St) : Prop := NoStop s.evs ∧ s.ws.map (·.kind) = ks

theorem note_before (env : Env) (n : Note) (s : St) (ks : List Kind) (h : Before ks s) : Before ks (note env n s).1 := by
  cases n with
  | connected wid =>
    refine ⟨h.1, ?_⟩
    simp only [note, List.map_map]
    rw [← h.2]
    apply List.map_congr_left
    intro w _
    simp only [Function.comp, learn]
    split <;> rfl
  | silent wid =>
    have hc := call_evs env (.clientFailure wid)
    rcases hcall : call env (.clientFailure wid) with ⟨evs, o⟩
    rw [hcall] at hc
    simp only at hc
    simp only [note, hcall]
    refine ⟨noStop_append.2 ⟨noStop_append.2 ⟨h.1, ?_⟩, by simp [hc, NoStop]⟩, ?_⟩
    · simp only [NoStop, silenceEvs, List.mem_flatMap, not_exists, not_and]
      intro w _
      unfold timeoutOne
      split <;> simp
    · rw [← h.2, List.map_map]
      apply List.map_congr_left
      intro w _
      simp only [Function.comp, silence, timeoutOne]
      split
      · split <;> rfl
      · rfl

theorem notes_before (env : Env) (l : List Note) (s : St) (ks : List Kind) (h : Before ks s) : Before ks (notes env l s).1 := by
  induction l generalizing s with
  | nil => exact h
  | cons n l ih =>
    have hn := note_before env n s ks h
    rcases ho : note env n s with ⟨s', o⟩
    rw [ho] at hn
    cases o with
    | ok => simpa only [notes, ho] using ih s' hn
    | raised e => simpa only [notes, ho] using hn
    | hangs => simpa only [notes, ho] using hn

theorem handleError_before (env : Env) (s : St) (ks : List Kind) (h : Before ks s) : Before ks (handleError env s).1 := by
  obtain ⟨h1, h2⟩ := killAll_inv s.ws
  have hc := call_evs env .sessionError
  rcases ho : killAll s.ws with ⟨ws, evs, o⟩
  rcases hcall : call env .sessionError with ⟨evs', o'⟩
  rw [ho] at h1 h2
  rw [hcall] at hc
  simp only at h1 h2 hc
  have hn : NoStop (s.evs ++ evs ++ evs') := noStop_append.2 ⟨noStop_append.2 ⟨h.1, h1⟩, by simp [hc, NoStop]⟩
  cases o with
  | ok =>
    cases o' <;>
    · simp only [handleError, ho, hcall]
      exact ⟨hn, h2.trans h.2⟩
  | raised e =>
    simp only [handleError, ho]
    exact ⟨noStop_append.2 ⟨h.1, h1⟩, h2.trans h.2⟩
  | hangs =>
    simp only [handleError, ho]
    exact ⟨noStop_append.2 ⟨h.1, h1⟩, h2.trans h.2⟩

theorem tryPart_before (env : Env) (l : List Note) (e : End) (s : St) (ks : List Kind) (h : Before ks s) : Before ks (tryPart env l e s).1 := by
  obtain ⟨h1, h2⟩ := startAll_inv env s.ws
  rcases ho : startAll env s.ws with ⟨ws, evs, o⟩
  rw [ho] at h1 h2
  simp only at h1 h2
  have hb : Before ks { ws := ws, evs := s.evs ++ evs } := ⟨noStop_append.2 ⟨h.1, h1⟩, h2.trans h.2⟩
  cases o with
  | ok =>
    have hn := notes_before env l { ws := ws, evs := s.evs ++ evs } ks hb
    simp only [tryPart, ho, loops]
    rcases hno : notes env l { ws := ws, evs := s.evs ++ evs } with ⟨s', o'⟩
    rw [hno] at hn
    cases o' with
    | ok =>
      cases e with
      | done => exact hn
      | error => exact handleError_before env s' ks hn
      | raised x => exact hn
    | raised e => exact hn
    | hangs => exact hn
  | raised e => simpa only [tryPart, ho] using hb
  | hangs => simpa only [tryPart, ho] using hb

theorem interruptPart_before (env : Env) (s : St) (ks : List Kind) (h : Before ks s) : Before ks (interruptPart env s).1 := by
  obtain ⟨h1, h2⟩ := killAll_inv s.ws
  have hc := call_evs env .sessionInterrupted
  rcases ho : killAll s.ws with ⟨ws, evs, o⟩
  rcases hcall : call env .sessionInterrupted with ⟨evs', o'⟩
  rw [ho] at h1 h2
  rw [hcall] at hc
  simp only at h1 h2 hc
  have hn : NoStop (s.evs ++ evs') := noStop_append.2 ⟨h.1, by simp [hc, NoStop]⟩
  cases o' with
  | ok =>
    cases o <;>
    · simp only [interruptPart, ho, hcall]
      exact ⟨noStop_append.2 ⟨hn, h1⟩, h2.trans h.2⟩
  | raised e =>
    simp only [interruptPart, hcall]
    exact ⟨hn, h.2⟩
  | hangs =>
    simp only [interruptPart, hcall]
    exact ⟨hn, h.2⟩

theorem finallyPart_stop (env : Env) (o : Out) (s : St) (ks : List Kind) (hk : ∀ k ∈ ks, k = .process) (h : Before ks s)
    (hs : Ev.call .stop ∈ (finallyPart env o s).1.evs) : ∀ w ∈ (finallyPart env o s).1.ws, Over w := by
  have hkind : ∀ w ∈ s.ws, w.kind = .process := by
    intro w hw
    exact hk _ (h.2 ▸ List.mem_map_of_mem (f := (·.kind)) hw)
  have hn := waitAll_noStop s.ws
  have hov := waitAll_over s.ws hkind
  rcases ho : waitAll s.ws with ⟨ws, evs, o'⟩
  rw [ho] at hn hov
  simp only at hn hov
  cases o' with
  | ok =>
    have hws : ∀ (x : St), (stopPart env x).1.ws = x.ws := by
      intro x
      unfold stopPart
      split
      · split; rfl
      · rfl
    have := hws { ws := ws, evs := s.evs ++ evs }
    simp only [finallyPart, ho]
    rcases hst : stopPart env { ws := ws, evs := s.evs ++ evs } with ⟨s', o''⟩
    rw [hst] at this
    simp only at this
    cases o'' <;>
    · simp only
      rw [this]
      exact hov rfl
  | raised e =>
    simp only [finallyPart, ho] at hs
    exact absurd hs (noStop_append.2 ⟨h.1, hn⟩)
  | hangs =>
    simp only [finallyPart, ho] at hs
    exact absurd hs (noStop_append.2 ⟨h.1, hn⟩)

/-- **C152**: whatever the hooks of the user, the processes, the servers and the clocks do, a parent with worker processes tells its
server to stop only when the end of all the workers was seen. -/
theorem C152_stopped_last (env : Env) (l : List Note) (e : End) (ws : List Wkr) (hk : ∀ w ∈ ws, w.kind = .process)
    (hs : Ev.call .stop ∈ (start env l e { ws := ws }).1.evs) :
    ∀ w ∈ (start env l e { ws := ws }).1.ws, ∃ p, w.proc = some p ∧ p.over = true := by
  have hb : Before (ws.map (·.kind)) { ws := ws } := ⟨noStop_nil, rfl⟩
  have hks : ∀ k ∈ ws.map (·.kind), k = .process := by
    intro k hm
    obtain ⟨w, hw, rfl⟩ := List.mem_map.1 hm
    exact hk w hw
  have ht := tryPart_before env l e { ws := ws } _ hb
  rcases htp : tryPart env l e { ws := ws } with ⟨s', o⟩
  rw [htp] at ht
  by_cases ho : o = .raised .interruption
  · subst ho
    have hi := interruptPart_before env s' _ ht
    rcases hip : interruptPart env s' with ⟨s'', o'⟩
    rw [hip] at hi
    simp only [start, htp, hip] at hs ⊢
    exact finallyPart_stop env o' s'' _ hks hi hs
  · have hst : start env l e { ws := ws } = finallyPart env o s' := by
      simp only [start, htp]
    rw [hst] at hs ⊢
    exact finallyPart_stop env o s' _ hks ht hs

/-! ## What goes wrong -/

/-- The parent is interrupted while it starts its second worker. -/
def exLate : Env := { ports := exPorts, hook := fun wid a => if wid = "2".toList then .error .interruption else .ok a }

/-- An interruption while workers are being started ends in `AttributeError`, the servers are not told to stop: the code waits for workers
that were not started. -/
theorem C152_interrupted_start_violated :
    ∃ env : Env, (∀ wid a x, env.hook wid a = .error x → x = .interruption) ∧ (∀ wid, env.spawn wid = none) ∧
      (∀ wid, env.beh wid = {}) ∧ (∀ c, env.rpc c = none) ∧
      (start env [] .done (create exCmd .process 2)).2 = .raised .attributeError ∧
      Ev.call .stop ∉ (start env [] .done (create exCmd .process 2)).1.evs := by
  refine ⟨exLate, ?_, fun _ => rfl, fun _ => rfl, fun _ => rfl, by decide +kernel, by decide +kernel⟩
  intro wid a x h
  unfold exLate at h
  simp only at h
  split at h <;> cases h
  rfl

/-- A user's hook raises an exception for the second worker; the first one would end when asked to. -/
def exHook : Env :=
  { ports := exPorts, hook := fun wid a => if wid = "2".toList then .error (.other 0) else .ok a,
    beh := fun _ => { alone := false } }

/-- An exception other than an interruption while workers are being started: the workers that run are not asked to end, although they
would, and the parent waits for them for ever. (A worker waits until all have connected.) -/
theorem C152_hook_error_violated :
    ∃ env : Env, (∀ wid, (env.beh wid).onTerm = true) ∧ (∀ c, env.rpc c = none) ∧
      (start env [] .done (create exCmd .process 2)).2 = .hangs ∧
      Ev.term "1".toList ∉ (start env [] .done (create exCmd .process 2)).1.evs :=
  ⟨exHook, fun _ => rfl, fun _ => rfl, by decide +kernel, by decide +kernel⟩

/-- A worker in `tmux` that did not connect in time: the parent gives up with `TypeError` instead of the time-out, does not
ask the other workers to end if they come later, and leaves its servers running. -/
theorem C152_tmux_unconnected_violated :
    ∃ (env : Env) (l : List Note), (∀ wid a, env.hook wid a = .ok a) ∧ (∀ wid, env.spawn wid = none) ∧ (∀ wid, env.beh wid = {}) ∧
      (∀ c, env.rpc c = none) ∧
      (start env l .error (create exCmd .tmux 2)).2 = .raised .typeError ∧
      (∀ c, Ev.call c ∉ (start env l .error (create exCmd .tmux 2)).1.evs) ∧
      Ev.term "2".toList ∉ (start env l .error (create exCmd .tmux 2)).1.evs := by
  refine ⟨{ ports := exPorts }, [.connected "2".toList], fun _ _ => rfl, fun _ => rfl, fun _ => rfl, fun _ => rfl, by decide +kernel, ?_,
    by decide +kernel⟩
  intro c h
  have : ∀ ev ∈ (start { ports := exPorts } [.connected "2".toList] .error (create exCmd .tmux 2)).1.evs, ev.program ≠ none := by
    decide +kernel
  exact this _ h rfl

/-- A worker in `tmux` that takes long to end, or was not heard of any more, still runs when the run of the parent is over. -/
theorem C152_tmux_left_violated :
    ∃ (env : Env) (l : List Note), (∀ wid a, env.hook wid a = .ok a) ∧ (∀ wid, env.spawn wid = none) ∧ (∀ c, env.rpc c = none) ∧
      (start env l .done (create exCmd .tmux 1)).2 = .ok ∧
      (start env l .done (create exCmd .tmux 1)).1.ws.map (fun w => w.proc.map (fun p => (p.over, p.ends))) = [some (false, false)] :=
  ⟨{ ports := exPorts, beh := fun _ => { alone := false } }, [.connected "1".toList, .silent "1".toList], fun _ _ => rfl, fun _ => rfl, fun _ => rfl,
    by decide +kernel, by decide +kernel⟩

/-- A second interruption, while the parent waits for its workers after the first one: the servers are not told to stop. -/
theorem C152_second_interruption_violated :
    ∃ env : Env, (∀ wid a, env.hook wid a = .ok a) ∧ (∀ wid, env.spawn wid = none) ∧ (∀ c, env.rpc c = none) ∧
      (∀ wid, (env.beh wid).onTerm = true) ∧
      (start env [] (.raised .interruption) (create exCmd .process 2)).2 = .raised .interruption ∧
      Ev.call .stop ∉ (start env [] (.raised .interruption) (create exCmd .process 2)).1.evs :=
  ⟨{ ports := exPorts, beh := fun wid => if wid = "1".toList then { interrupts := true } else {} }, fun _ _ => rfl, fun _ => rfl, fun _ => rfl,
    by intro wid; simp only; split <;> rfl, by decide +kernel, by decide +kernel⟩

-- Two processes that end only when asked to, one of them found silent; then an interruption.
example :
    let env : Env := { ports := exPorts, beh := fun _ => { alone := false } }
    (∀ w ∈ (create exCmd .process 2).ws, Willing env [.silent "2".toList] (.raised .interruption) w) ∧
    (start env [.silent "2".toList] (.raised .interruption) (create exCmd .process 2)).1.evs.drop 2 =
      [.kill "2".toList, .call (.clientFailure "2".toList), .call .sessionInterrupted, .term "1".toList, .term "2".toList,
       .over "1".toList, .over "2".toList, .call .stop, .call .stopKeepalive] := by
  refine ⟨?_, by decide +kernel⟩
  intro w hw
  obtain ⟨i, -, rfl⟩ := List.mem_map.1 hw
  exact ⟨rfl, .inr (.inl ⟨rfl, rfl⟩)⟩

end Slash.WP
