import Verif.Model.Tmux
import Verif.Props.WorkerProc

/-!
# C168: running in `tmux`
-/
namespace Slash.Tmux

open Slash.WP (Arg join words Plain words_plain)

/-! ## Finding the executable -/

/-- How to split at a character and put the pieces together again. -/
def glue (sep : Char) : List Arg → List Char
  | [] => []
  | [a] => a
  | a :: b :: l => a ++ sep :: glue sep (b :: l)

theorem splitAt_ne (sep : Char) (cur l : List Char) : splitAt sep cur l ≠ [] := by
  induction l generalizing cur with
  | nil => simp [splitAt]
  | cons c l ih =>
    unfold splitAt
    by_cases h : c = sep
    · rw [if_pos h]; simp
    · rw [if_neg h]; exact ih _

theorem glue_splitAt (sep : Char) (cur l : List Char) : glue sep (splitAt sep cur l) = cur ++ l := by
  induction l generalizing cur with
  | nil => simp [splitAt, glue]
  | cons c l ih =>
    unfold splitAt
    by_cases h : c = sep
    · subst h
      rw [if_pos rfl]
      have ih' := ih []
      rcases hs : splitAt c [] l with _ | ⟨a, r⟩
      · exact absurd hs (splitAt_ne _ _ _)
      · rw [hs] at ih'
        simp only [glue, ih', List.nil_append]
    · rw [if_neg h, ih]; simp

theorem splitAt_free (sep : Char) (cur l : List Char) (hc : sep ∉ cur) : ∀ a ∈ splitAt sep cur l, sep ∉ a := by
  induction l generalizing cur with
  | nil => simpa [splitAt] using hc
  | cons c l ih =>
    unfold splitAt
    by_cases h : c = sep
    · rw [if_pos h]
      intro a ha
      rcases List.mem_cons.1 ha with rfl | ha
      · exact hc
      · exact ih [] (by simp) a ha
    · rw [if_neg h]
      exact ih _ (by simp [hc, Ne.symm h])

theorem firstIn_spec (isExe : Arg → Bool) (prog : Arg) (ds : List Arg) :
    match firstIn isExe prog ds with
    | some f => ∃ (i : Nat) (d : Arg), ds[i]? = some d ∧ f = pathJoin (strip d) prog ∧ isExe f = true ∧
        ∀ (j : Nat) (e : Arg), j < i → ds[j]? = some e → isExe (pathJoin (strip e) prog) = false
    | none => ∀ d ∈ ds, isExe (pathJoin (strip d) prog) = false := by
  induction ds with
  | nil => simp [firstIn]
  | cons d l ih =>
    unfold firstIn
    cases hd : isExe (pathJoin (strip d) prog) with
    | true =>
      simp only [if_true]
      exact ⟨0, d, rfl, rfl, hd, fun j e hj => absurd hj (by omega)⟩
    | false =>
      simp only [Bool.false_eq_true, if_false]
      generalize firstIn isExe prog l = o at ih ⊢
      cases o with
      | none =>
        intro e he
        rcases List.mem_cons.1 he with rfl | he
        · exact hd
        · exact ih e he
      | some f =>
        obtain ⟨i, e, h1, h2, h3, h4⟩ := ih
        refine ⟨i + 1, e, by simpa using h1, h2, h3, ?_⟩
        intro j e' hj he'
        cases j with
        | zero => simp at he'; subst he'; exact hd
        | succ j => exact h4 j e' (by omega) (by simpa using he')

/-- **C168**: a program named without a directory is looked for in the directories of `PATH`, which are the pieces between the colons, in
order: the file found is the executable of that name in the first of them that has one, and none is found only if none has one. A
program named with a directory is that file, if it is executable. -/
theorem C168_which (p : Proc) (prog : Arg) :
    ∃ ds : List Arg, glue ':' ds = p.path ∧ (∀ d ∈ ds, ':' ∉ d) ∧
      ('/' ∉ prog →
        (∀ f, which p prog = some f → p.isExe f = true ∧ ∃ (i : Nat) (d : Arg), ds[i]? = some d ∧ f = pathJoin (strip d) prog ∧
          ∀ (j : Nat) (e : Arg), j < i → ds[j]? = some e → p.isExe (pathJoin (strip e) prog) = false) ∧
        (which p prog = none → ∀ d ∈ ds, p.isExe (pathJoin (strip d) prog) = false)) ∧
      ('/' ∈ prog → which p prog = if p.isExe prog then some prog else none) := by
  refine ⟨splitAt ':' [] p.path, by simpa using glue_splitAt ':' [] p.path, splitAt_free ':' [] p.path (by simp), ?_, ?_⟩
  · intro hs
    have hw : which p prog = firstIn p.isExe prog (splitAt ':' [] p.path) := by unfold which; rw [if_neg hs]
    rw [hw]
    have := firstIn_spec p.isExe prog (splitAt ':' [] p.path)
    generalize firstIn p.isExe prog (splitAt ':' [] p.path) = o at this ⊢
    cases o with
    | none => exact ⟨fun f hf => by simp at hf, fun _ => this⟩
    | some f =>
      refine ⟨fun f' hf => ?_, fun h => by simp at h⟩
      obtain rfl : f = f' := by simpa using hf
      obtain ⟨i, d, h1, h2, h3, h4⟩ := this
      exact ⟨h3, i, d, h1, h2, h4⟩
  · intro hs
    unfold which
    rw [if_pos hs]

/-- **C168**: quotes around a directory do not count; the file of a directory is looked for with exactly one slash in between, and in the
current directory if the directory is empty. -/
theorem C168_file (a b : Nat) (d prog : List Char) :
    (d.head? ≠ some '"' → d.getLast? ≠ some '"' → strip (List.replicate a '"' ++ d ++ List.replicate b '"') = d) ∧
    (d ≠ [] → d.getLast? ≠ some '/' → pathJoin d prog = d ++ ['/'] ++ prog ∧ pathJoin (d ++ ['/']) prog = d ++ ['/'] ++ prog) ∧
    pathJoin [] prog = prog := by
  have hdrop : ∀ (n : Nat) (l : List Char), l.head? ≠ some '"' → (List.replicate n '"' ++ l).dropWhile (· = '"') = l := by
    intro n l hl
    induction n with
    | zero =>
      cases l with
      | nil => rfl
      | cons c l =>
        have : ¬ c = '"' := fun h => hl (by simp [h])
        simp [List.dropWhile, this]
    | succ n ih =>
      rw [List.replicate_succ, List.cons_append]
      simpa [List.dropWhile] using ih
  refine ⟨fun h1 h2 => ?_, fun h1 h2 => ⟨?_, ?_⟩, ?_⟩
  · unfold strip
    cases d with
    | nil =>
      have h0 : ∀ n, (List.replicate n '"').dropWhile (· = '"') = [] := by
        intro n
        have := hdrop n [] (by simp)
        simpa using this
      rw [List.append_nil, List.replicate_append_replicate, h0]
      rfl
    | cons c d =>
      rw [List.append_assoc, hdrop a _ (by simpa using h1)]
      rw [List.reverse_append, List.reverse_replicate, hdrop b _ (by rw [List.head?_reverse]; exact h2)]
      simp
  · unfold pathJoin
    rw [if_neg h1, if_neg h2]; simp
  · unfold pathJoin
    rw [if_neg (by simp), if_pos (by simp)]
  · unfold pathJoin; rw [if_pos rfl]

/-- The directory in front of a file is kept as it is but for quotes around it. -/
example : strip "\"/opt/x\"".toList = "/opt/x".toList ∧ pathJoin "/opt/x".toList "tmux".toList = "/opt/x/tmux".toList ∧
    pathJoin "/opt/".toList "tmux".toList = "/opt/tmux".toList ∧ pathJoin [] "tmux".toList = "tmux".toList := by decide

/-- A process whose second directory of `PATH` has `tmux`. -/
def exProc : Proc :=
  { exe := "/usr/bin/python".toList, path := "/home/u/bin:/usr/bin:/bin".toList,
    isExe := fun f => f = "/usr/bin/tmux".toList || f = "/bin/tmux".toList }

example : which exProc "tmux".toList = some "/usr/bin/tmux".toList := by decide +kernel
example : which exProc "screen".toList = none := by decide +kernel

/-! ## The run -/

/-- The arguments of the program a process became. -/
def Out.argv : Out → List Arg
  | .became _ a => a
  | _ => []

theorem find_some {s : Server} {name : Arg} {i : Nat} (h : s.find name = some i) :
    s.running = true ∧ s.sessions[i]? = some name ∧ ∀ j, j < i → s.sessions[j]? ≠ some name := by
  unfold Server.find at h
  cases hr : s.running with
  | false => rw [hr] at h; simp at h
  | true =>
    rw [hr] at h
    simp only [if_true] at h
    rw [List.findIdx?_eq_some_iff_getElem] at h
    obtain ⟨hi, h1, h2⟩ := h
    refine ⟨rfl, ?_, ?_⟩
    · rw [List.getElem?_eq_getElem hi]; simpa using h1
    · intro j hj he
      have hj' : j < s.sessions.length := by omega
      rw [List.getElem?_eq_getElem hj'] at he
      have := h2 j hj
      simp at this he
      exact this he

theorem find_none {s : Server} {name : Arg} (h : s.find name = none) (hr : s.running = true) : name ∉ s.sessions := by
  unfold Server.find at h
  rw [hr] at h
  simp only [if_true] at h
  rw [List.findIdx?_eq_none_iff] at h
  intro hm
  simpa using h _ hm

/-- **C168**: if there is no session of the agreed name and no `tmux` can be found, the run fails and nothing is changed. -/
theorem C168_missing (p : Proc) (cmd : Arg) (argv : List Arg) (id : Arg) (s : Server) :
    (run p cmd argv id s).2 = .notFound ↔ ((s.running = true → defaultName ∉ s.sessions) ∧ which p "tmux".toList = none) := by
  unfold run
  cases hf : s.find defaultName with
  | some i =>
    obtain ⟨h1, h2, -⟩ := find_some hf
    refine ⟨fun h => by simp at h, fun h => absurd (List.mem_of_getElem? h2) (h.1 h1)⟩
  | none =>
    simp only
    cases hw : which p "tmux".toList with
    | none => exact ⟨fun _ => ⟨find_none hf, rfl⟩, fun _ => rfl⟩
    | some t => exact ⟨fun h => by simp at h, fun h => by simp at h⟩

theorem words_joined (argv : List Arg) (hp : ∀ a ∈ argv, Plain a) : words [] (join argv) = argv := by
  induction argv with
  | nil => rfl
  | cons a l ih =>
    obtain ⟨h0, h1, h2⟩ := hp a List.mem_cons_self
    have hl := ih (fun b hb => hp b (List.mem_cons_of_mem _ hb))
    cases l with
    | nil =>
      have := words_plain a [] [] h1 h2
      simp only [List.append_nil, List.nil_append] at this
      simp only [join]
      rw [this]
      unfold words
      rw [if_neg h0]
    | cons b l =>
      have hj : join (a :: b :: l) = a ++ ' ' :: join (b :: l) := rfl
      rw [hj, words_plain a _ [] h1 h2]
      simp only [words, List.nil_append]
      rw [if_neg (by decide), if_pos trivial, if_neg h0, hl]

/-- **C168** (partial): without a session of the agreed name, the process becomes `tmux`, which makes exactly one session, of that name,
and lets it run the same command with the same arguments, if no argument is empty or has a blank or a `;` in it. Within `tmux`, the
new session is not attached. Missing: other arguments, see `C168_space_violated`. -/
theorem C168_started_partial (p : Proc) (cmd : Arg) (argv : List Arg) (id : Arg) (s : Server)
    (hn : s.running = true → defaultName ∉ s.sessions) (f : Arg) (hw : which p "tmux".toList = some f)
    (hp : ∀ a ∈ p.exe :: cmd :: argv, Plain a) :
    ∃ args, run p cmd argv id s = (s, .became f args) ∧
      args.head? = some f ∧ ("-Ad".toList ∈ args ↔ p.tmuxVar = true) ∧
      (tmuxStarts args s).2 = [p.exe, "-m".toList, "slash.frontend.main".toList, cmd] ++ argv ∧
      (tmuxStarts args s).1.running = true ∧
      (tmuxStarts args s).1.sessions = (if s.running then s.sessions else []) ++ [defaultName] := by
  have hf : s.find defaultName = none := by
    cases h : s.find defaultName with
    | none => rfl
    | some i =>
      obtain ⟨h1, h2, -⟩ := find_some h
      exact absurd (List.mem_of_getElem? h2) (hn h1)
  have hall : ∀ a ∈ [p.exe, "-m".toList, "slash.frontend.main".toList, cmd] ++ argv, Plain a := by
    intro a ha
    simp only [List.cons_append, List.nil_append, List.mem_cons] at ha
    rcases ha with rfl | rfl | rfl | rfl | ha
    · exact hp _ (by simp)
    · decide
    · decide
    · exact hp _ (by simp)
    · exact hp _ (by simp [ha])
  have hj := words_joined _ hall
  have hfA : f ≠ "-Ad".toList := by
    intro h
    obtain ⟨ds, -, -, h1, -⟩ := C168_which p "tmux".toList
    obtain ⟨-, i, d, -, h2, -⟩ := (h1 (by decide)).1 f hw
    rw [h] at h2
    have h3 : (pathJoin (strip d) "tmux".toList).getLast? = some 'x' := by
      unfold pathJoin
      split
      · decide
      · split
        · simp [List.getLast?_append]
        · simp [List.getLast?_append, List.getLast?_cons]
    rw [← h2] at h3
    exact absurd h3 (by decide)
  have hlast : join ([p.exe, "-m".toList, "slash.frontend.main".toList, cmd] ++ argv) ≠ "-Ad".toList := by
    intro h
    rw [h] at hj
    have := congrArg List.length hj
    have h1 : (words [] "-Ad".toList).length = 1 := by decide
    rw [h1] at this
    simp at this
  unfold run
  rw [hf]
  simp only [hw]
  generalize join ([p.exe, "-m".toList, "slash.frontend.main".toList, cmd] ++ argv) = line at hj hlast ⊢
  refine ⟨_, rfl, rfl, ?_, ?_, rfl, ?_⟩
  · cases p.tmuxVar with
    | true => simp
    | false =>
      simp only [Bool.false_eq_true, if_false, List.append_nil, List.cons_append, List.nil_append, List.mem_cons, List.not_mem_nil, or_false, iff_false, not_or]
      exact ⟨fun h => hfA h.symm, by decide, by decide, by decide, by decide, by decide, fun h => hlast h.symm⟩
  · unfold tmuxStarts
    simp only
    rw [← hj]
    congr 1
    cases p.tmuxVar <;> rfl
  · cases p.tmuxVar <;> rfl

example :
    (run exProc "run".toList ["-v".toList, "a.py".toList] "id1".toList {}).2 =
      .became "/usr/bin/tmux".toList ["/usr/bin/tmux".toList, "new-session".toList, "-s".toList, "slash_session".toList, "-n".toList,
        "master".toList, "/usr/bin/python -m slash.frontend.main run -v a.py".toList] := by decide +kernel

/-- **C168** (violated): the arguments are not quoted: a filter of several words becomes several arguments. -/
theorem C168_space_violated :
    (tmuxStarts (run exProc "run".toList ["-k".toList, "a and b".toList, "t.py".toList] "id1".toList {}).2.argv {}).2 =
      ["/usr/bin/python".toList, "-m".toList, "slash.frontend.main".toList, "run".toList, "-k".toList, "a".toList,
        "and".toList, "b".toList, "t.py".toList] := by
  decide +kernel

theorem rename_get (l : List Arg) (i : Nat) (name : Arg) (j : Nat) :
    (rename l i name)[j]? = if i = j then l[j]?.map (fun _ => name) else l[j]? := by
  unfold rename
  rw [List.getElem?_modify]
  split <;> simp

/-- **C168**: if there is a session of the agreed name, the run goes on in this process; the first such session gets the id of the run as
its name, all others stay as they are, and windows for workers can be made from then on: they are made in a session named by the id. -/
theorem C168_found (p : Proc) (cmd : Arg) (argv : List Arg) (id : Arg) (s : Server) (hr : s.running = true) (hm : defaultName ∈ s.sessions) :
    ∃ i, s.sessions[i]? = some defaultName ∧ (∀ j, j < i → s.sessions[j]? ≠ some defaultName) ∧
      (run p cmd argv id s).2 = .ok ∧
      (run p cmd argv id s).1.sessions.length = s.sessions.length ∧
      (∀ j, (run p cmd argv id s).1.sessions[j]? = if j = i then some id else s.sessions[j]?) ∧
      ∃ k, newWindow (run p cmd argv id s).1 id = some k ∧ (run p cmd argv id s).1.sessions[k]? = some id ∧
        (id ∉ s.sessions → k = i) := by
  cases hf : s.find defaultName with
  | none => exact absurd hm (find_none hf hr)
  | some i =>
    obtain ⟨-, h2, h3⟩ := find_some hf
    have hrun : run p cmd argv id s = ({ s with sessions := rename s.sessions i id }, .ok) := by
      unfold run; rw [hf]
    rw [hrun]
    have hget : ∀ j, (rename s.sessions i id)[j]? = if j = i then some id else s.sessions[j]? := by
      intro j
      rw [rename_get]
      by_cases h : i = j
      · subst h; simp [h2]
      · rw [if_neg h, if_neg (Ne.symm h)]
    refine ⟨i, h2, h3, rfl, by simp [rename], hget, ?_⟩
    cases hk : newWindow { s with sessions := rename s.sessions i id } id with
    | none =>
      have := find_none hk hr
      exact absurd (List.mem_of_getElem? (by have := hget i; rwa [if_pos rfl] at this)) this
    | some k =>
      obtain ⟨-, h4, h5⟩ := find_some hk
      refine ⟨k, rfl, h4, ?_⟩
      intro hid
      have h4' := h4
      simp only at h4'
      rw [hget] at h4'
      by_cases h : k = i
      · exact h
      · rw [if_neg h] at h4'
        exact absurd (List.mem_of_getElem? h4') hid

example : run exProc "run".toList [] "id1".toList { sessions := ["mine".toList, "slash_session".toList, "x".toList] } =
    ({ sessions := ["mine".toList, "id1".toList, "x".toList] }, .ok) := by decide +kernel

/-- **C168**: a run started outside of `tmux` moves exactly once: the run which `tmux` starts finds its session, goes on, and its session,
the last one, is then named by its id; windows for its workers are made there, unless the id was already the name of a session. -/
theorem C168_moves_once (p q : Proc) (cmd : Arg) (argv : List Arg) (id id' : Arg) (s : Server)
    (hn : s.running = true → defaultName ∉ s.sessions) (f : Arg) (args : List Arg)
    (hb : (run p cmd argv id s).2 = .became f args) :
    (run q cmd argv id' (tmuxStarts args s).1).2 = .ok ∧
    (run q cmd argv id' (tmuxStarts args s).1).1.sessions = (if s.running then s.sessions else []) ++ [id'] ∧
    (id' ∉ (if s.running then s.sessions else []) →
      newWindow (run q cmd argv id' (tmuxStarts args s).1).1 id' = some (if s.running then s.sessions else []).length) := by
  have hs : (tmuxStarts args s).1 = { running := true, sessions := (if s.running then s.sessions else []) ++ [defaultName] } := by
    unfold run at hb
    cases hf : s.find defaultName with
    | some i => rw [hf] at hb; simp at hb
    | none =>
      rw [hf] at hb
      simp only at hb
      cases hw : which p "tmux".toList with
      | none => rw [hw] at hb; simp at hb
      | some t =>
        rw [hw] at hb
        simp only [Out.became.injEq] at hb
        obtain ⟨-, rfl⟩ := hb
        unfold tmuxStarts
        cases p.tmuxVar <;> rfl
  rw [hs]
  generalize hl : (if s.running then s.sessions else []) = l at *
  have hd : defaultName ∉ l := by
    rw [← hl]
    cases h : s.running with
    | true => simpa [h] using hn h
    | false => simp
  obtain ⟨i, h1, h2, h3, h4, h5, k, h6, h7, h8⟩ :=
    C168_found q cmd argv id' { running := true, sessions := l ++ [defaultName] } rfl (by simp)
  have hi : i = l.length := by
    simp only at h1
    rw [List.getElem?_append] at h1
    by_cases hlt : i < l.length
    · rw [if_pos hlt] at h1
      exact absurd (List.mem_of_getElem? h1) hd
    · rw [if_neg hlt] at h1
      by_cases h0 : i - l.length = 0
      · omega
      · have : ([defaultName] : List Arg)[i - l.length]? = none := by
          apply List.getElem?_eq_none; simp; omega
        rw [this] at h1; simp at h1
  subst hi
  refine ⟨h3, ?_, ?_⟩
  · apply List.ext_getElem?
    intro j
    rw [h5 j]
    simp only
    by_cases hj : j = l.length
    · subst hj; simp
    · rw [if_neg hj]
      rw [List.getElem?_append, List.getElem?_append]
      by_cases hlt : j < l.length
      · rw [if_pos hlt, if_pos hlt]
      · rw [if_neg hlt, if_neg hlt]
        rw [List.getElem?_eq_none (by simp; omega), List.getElem?_eq_none (by simp; omega)]
  · intro hid
    by_cases hdd : id' = defaultName
    · -- the session keeps its name
      rw [h6]
      rw [h5 k] at h7
      by_cases hk : k = l.length
      · rw [hk]
      · rw [if_neg hk] at h7
        simp only at h7
        rw [List.getElem?_append] at h7
        by_cases hlt : k < l.length
        · rw [if_pos hlt] at h7
          exact absurd (List.mem_of_getElem? h7) hid
        · rw [if_neg hlt, List.getElem?_eq_none (by simp; omega)] at h7
          simp at h7
    · rw [h6, h8 (by simp [hid, hdd])]

/-- **C168** (violated): a run started outside of `tmux` while a session of the agreed name exists, for example one of another run that has
not come to give it its own name yet, does not move into `tmux`; it takes the session of the other run for its own. -/
theorem C168_foreign_session_violated :
    run exProc "run".toList [] "id2".toList { sessions := ["slash_session".toList] } = ({ sessions := ["id2".toList] }, .ok) := by
  decide +kernel

/-- The run outside, then the run `tmux` starts. -/
example :
    let s : Server := { sessions := ["mine".toList] }
    let args := (run exProc "run".toList ["a.py".toList] "id1".toList s).2.argv
    (tmuxStarts args s).1.sessions = ["mine".toList, "slash_session".toList] ∧
      (run { exProc with tmuxVar := true } "run".toList ["a.py".toList] "id7".toList (tmuxStarts args s).1).1.sessions = ["mine".toList, "id7".toList] := by
  decide +kernel

/-- **C168**: without a session named by the id no window is made; this is an error of the run, never a window elsewhere. -/
theorem C168_window (s : Server) (id : Arg) :
    (newWindow s id = none ↔ (s.running = true → id ∉ s.sessions)) ∧ ∀ i, newWindow s id = some i → s.running = true ∧ s.sessions[i]? = some id := by
  refine ⟨⟨fun h => find_none h, fun h => ?_⟩, fun i hi => ⟨(find_some hi).1, (find_some hi).2.1⟩⟩
  cases hf : newWindow s id with
  | none => rfl
  | some i => exact absurd (List.mem_of_getElem? (find_some hf).2.1) (h (find_some hf).1)

example : newWindow { sessions := ["a".toList, "b".toList] } "b".toList = some 1 ∧ newWindow { running := false } "b".toList = none := by decide

end Slash.Tmux
