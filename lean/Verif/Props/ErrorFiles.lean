import Verif.Model.ErrorFiles

/-!
# C171: error files of parallel workers
-/
namespace Slash.ErrF

theorem fileName_inj {pre w v : Text} (h : fileName pre w = fileName pre v) : w = v := by
  unfold fileName at h
  rw [List.append_assoc, List.append_assoc] at h
  have h1 := List.append_cancel_left h
  have h2 : '-' :: (w ++ ".log".toList) = '-' :: (v ++ ".log".toList) := h1
  exact List.append_cancel_right (List.cons.inj h2).2

/-- What a worker wrote, all in all. -/
def written (ms : List Msg) (wid : Text) : Text := ((ms.filter fun m => m.wid = wid && !m.fails).map (·.text)).flatten

/-- What the log has of a file. -/
def linesOf (name : Text) (l : List Logged) : List Text :=
  l.filterMap fun x => match x with
    | .line f t => if f = name then some t else none
    | .noFiles => none

theorem append_spec (name msg : Text) (d : Dir) (hn : (d.map (·.1)).Nodup) :
    ((append name msg d).map (·.1)).Nodup ∧
    (∀ n, n ∈ (append name msg d).map (·.1) ↔ n = name ∨ n ∈ d.map (·.1)) ∧
    (∀ t, (name, t) ∈ append name msg d ↔ (t = msg ∧ name ∉ d.map (·.1)) ∨ ∃ t', (name, t') ∈ d ∧ t = t' ++ msg) ∧
    (∀ n t, n ≠ name → ((n, t) ∈ append name msg d ↔ (n, t) ∈ d)) := by
  induction d with
  | nil =>
    refine ⟨by simp [append], by simp [append], by simp [append], ?_⟩
    intro n t h
    simp [append, h]
  | cons f d ih =>
    rcases f with ⟨a, b⟩
    simp only [List.map_cons, List.nodup_cons] at hn
    obtain ⟨h1, h2, h3, h4⟩ := ih hn.2
    unfold append
    by_cases ha : a = name
    · subst ha
      simp only [if_true]
      refine ⟨by simpa using hn, by simp, ?_, ?_⟩
      · intro t
        have hno : ∀ t', (a, t') ∉ d := fun t' h => hn.1 (List.mem_map.2 ⟨_, h, rfl⟩)
        constructor
        · intro h
          rcases List.mem_cons.1 h with h | h
          · exact .inr ⟨b, by simp, by simpa using h⟩
          · exact absurd h (hno t)
        · rintro (⟨-, h⟩ | ⟨t', h, rfl⟩)
          · simp at h
          · rcases List.mem_cons.1 h with h | h
            · obtain rfl : t' = b := by simpa using h
              simp
            · exact absurd h (hno t')
      · intro n t h
        simp [h]
    · simp only [if_neg ha]
      refine ⟨?_, ?_, ?_, ?_⟩
      · simp only [List.map_cons, List.nodup_cons]
        refine ⟨fun h => ?_, h1⟩
        rcases (h2 a).1 h with h | h
        · exact ha h
        · exact hn.1 h
      · intro n
        simp only [List.map_cons, List.mem_cons, h2]
        constructor
        · rintro (h | h | h)
          · exact .inr (.inl h)
          · exact .inl h
          · exact .inr (.inr h)
        · rintro (h | h | h)
          · exact .inr (.inl h)
          · exact .inl h
          · exact .inr (.inr h)
      · intro t
        have e : ∀ x : Text, (name, x) ≠ (a, b) := fun x h => ha (by simpa using (congrArg Prod.fst h).symm)
        simp only [List.mem_cons, e, false_or, h3, List.map_cons, List.mem_cons, not_or]
        constructor
        · rintro (⟨h, h'⟩ | h)
          · exact .inl ⟨h, fun e => ha e.symm, h'⟩
          · exact .inr h
        · rintro (⟨h, -, h'⟩ | h)
          · exact .inl ⟨h, h'⟩
          · exact .inr h
      · intro n t h
        simp only [List.mem_cons, h4 n t h]

/-- The directory after some messages. -/
structure Holds (pre : Text) (ms : List Msg) (d : Dir) : Prop where
  nodup : (d.map (·.1)).Nodup
  names : ∀ n, n ∈ d.map (·.1) ↔ ∃ m ∈ ms, m.fails = false ∧ n = fileName pre m.wid
  content : ∀ w t, (fileName pre w, t) ∈ d → t = written ms w

theorem written_snoc (ms : List Msg) (m : Msg) (w : Text) :
    written (ms ++ [m]) w = written ms w ++ (if m.wid = w ∧ m.fails = false then m.text else []) := by
  unfold written
  rw [List.filter_append, List.map_append, List.flatten_append]
  congr 1
  by_cases h : m.wid = w
  · cases hf : m.fails <;> simp [h, hf]
  · simp [h]

theorem written_none (ms : List Msg) (w : Text) (h : ∀ m ∈ ms, m.fails = false → m.wid ≠ w) : written ms w = [] := by
  unfold written
  have : ms.filter (fun m => m.wid = w && !m.fails) = [] := by
    rw [List.filter_eq_nil_iff]
    intro m hm hh
    simp at hh
    exact h m hm hh.2 hh.1
  rw [this]; rfl

theorem Holds.write {pre : Text} {ms : List Msg} {d : Dir} (h : Holds pre ms d) (m : Msg) : Holds pre (ms ++ [m]) (write pre d m) := by
  unfold ErrF.write
  cases hf : m.fails with
  | true =>
    simp only [if_true]
    refine ⟨h.nodup, ?_, ?_⟩
    · intro n
      rw [h.names]
      constructor
      · rintro ⟨m', hm, hh⟩
        exact ⟨m', by simp [hm], hh⟩
      · rintro ⟨m', hm, hh, e⟩
        rcases List.mem_append.1 hm with hm | hm
        · exact ⟨m', hm, hh, e⟩
        · obtain rfl : m' = m := by simpa using hm
          rw [hf] at hh; simp at hh
    · intro w t ht
      rw [written_snoc, hf]
      simpa using h.content w t ht
  | false =>
    simp only [Bool.false_eq_true, if_false]
    obtain ⟨h1, h2, h3, h4⟩ := append_spec (fileName pre m.wid) m.text d h.nodup
    refine ⟨h1, ?_, ?_⟩
    · intro n
      rw [h2, h.names]
      constructor
      · rintro (h | ⟨m', hm, hh⟩)
        · exact ⟨m, by simp, hf, h⟩
        · exact ⟨m', by simp [hm], hh⟩
      · rintro ⟨m', hm, hh, e⟩
        rcases List.mem_append.1 hm with hm | hm
        · exact .inr ⟨m', hm, hh, e⟩
        · obtain rfl : m' = m := by simpa using hm
          exact .inl e
    · intro w t ht
      rw [written_snoc]
      by_cases hw : m.wid = w
      · subst hw
        simp only [hf, and_self, if_true]
        rcases (h3 t).1 ht with ⟨e, hno⟩ | ⟨t', ht', e⟩
        · rw [e]
          rw [written_none ms m.wid]
          · rfl
          · intro m' hm' hff e'
            exact hno ((h.names _).2 ⟨m', hm', hff, by rw [e']⟩)
        · rw [e, h.content _ _ ht']
      · have hne : fileName pre w ≠ fileName pre m.wid := fun e => hw (fileName_inj e).symm
        rw [h4 _ _ hne] at ht
        rw [h.content w t ht]
        simp [hw]

theorem writes_holds (pre : Text) (ms : List Msg) : Holds pre ms (writes pre [] ms) := by
  have key : ∀ (ms ms' : List Msg) (d : Dir), Holds pre ms' d → Holds pre (ms' ++ ms) (ms.foldl (write pre) d) := by
    intro ms
    induction ms with
    | nil => intro ms' d h; simpa using h
    | cons m ms ih =>
      intro ms' d h
      have := ih (ms' ++ [m]) (write pre d m) (h.write m)
      simpa using this
  have h0 : Holds pre [] [] := ⟨by simp, by simp, by simp⟩
  have := key ms [] [] h0
  rwa [List.nil_append] at this

theorem readlines_flatten (cur l : Text) : (readlines cur l).flatten = cur ++ l := by
  induction l generalizing cur with
  | nil =>
    unfold readlines
    by_cases h : cur = []
    · simp [h]
    · simp [h]
  | cons c l ih =>
    unfold readlines
    by_cases h : c = '\n'
    · rw [if_pos h]; simp [ih]
    · rw [if_neg h, ih]; simp

/-- Lines: each but the last ends with the only line end in it, and none is empty. -/
theorem readlines_lines (cur l : Text) (hc : '\n' ∉ cur) :
    ∀ t ∈ readlines cur l, t ≠ [] ∧ ∃ b, '\n' ∉ b ∧ (t = b ++ ['\n'] ∨ t = b) := by
  induction l generalizing cur with
  | nil =>
    unfold readlines
    by_cases h : cur = []
    · simp [h]
    · simp only [if_neg h, List.mem_singleton]
      rintro t rfl
      exact ⟨h, _, hc, .inr rfl⟩
  | cons c l ih =>
    unfold readlines
    by_cases h : c = '\n'
    · subst h
      rw [if_pos rfl]
      intro t ht
      rcases List.mem_cons.1 ht with rfl | ht
      · exact ⟨by simp, cur, hc, .inl rfl⟩
      · exact ih [] (by simp) t ht
    · rw [if_neg h]
      exact ih _ (by simp [hc, Ne.symm h])

theorem prefix_fileName (pre w : Text) : pre.isPrefixOf (fileName pre w) = true := by
  rw [List.isPrefixOf_iff_prefix]
  unfold fileName
  rw [List.append_assoc]
  exact List.prefix_append _ _

theorem linesOf_append (n : Text) (a b : List Logged) : linesOf n (a ++ b) = linesOf n a ++ linesOf n b := by
  simp [linesOf, List.filterMap_append]

theorem linesOf_map (n f : Text) (l : List Text) : linesOf n (l.map (.line f)) = if f = n then l else [] := by
  unfold linesOf
  rw [List.filterMap_map]
  by_cases h : f = n
  · simp [h, Function.comp_def]
  · simp [h, Function.comp_def]

theorem linesOf_files (pre n : Text) (d : Dir) (hn : (d.map (·.1)).Nodup) (hp : ∀ f ∈ d, isErrorFile pre f = true) :
    (∀ t, (n, t) ∈ d → linesOf n (report pre d) = readlines [] t) ∧ (n ∉ d.map (·.1) → linesOf n (report pre d) = []) := by
  have hfil : d.filter (isErrorFile pre) = d := List.filter_eq_self.2 hp
  have hend : linesOf n (if d.any (isErrorFile pre) then ([] : List Logged) else [.noFiles]) = [] := by
    split <;> rfl
  unfold report
  rw [linesOf_append, hend, List.append_nil, hfil]
  clear hfil hend hp
  induction d with
  | nil => exact ⟨by simp, fun _ => rfl⟩
  | cons f d ih =>
    rcases f with ⟨a, b⟩
    simp only [List.map_cons, List.nodup_cons] at hn
    obtain ⟨h1, h2⟩ := ih hn.2
    rw [List.flatMap_cons, linesOf_append, linesOf_map]
    refine ⟨fun t ht => ?_, fun hno => ?_⟩
    · rcases List.mem_cons.1 ht with h | h
      · obtain ⟨rfl, rfl⟩ : n = a ∧ t = b := by simpa using h
        rw [h2 hn.1]; simp
      · have : a ≠ n := fun e => hn.1 (e ▸ List.mem_map.2 ⟨_, h, rfl⟩)
        rw [h1 t h]; simp [this]
    · simp only [List.map_cons, List.mem_cons, not_or] at hno
      rw [h2 hno.2]
      simp [Ne.symm hno.1]

/-- **C171** (partial): whatever workers write in whichever order, and in whichever order the directory lists its files: all that a worker could
write is logged by the parent, under the name of the file of this worker, in lines: put together they are what the worker wrote, in
order. Nothing else is logged with file names, and the notice that there are no files is logged if and only if no worker could write
anything. Missing: that messages are on lines of their own (`C171_lines_violated`), and that a message without text is noticed
(`C171_empty_violated`). -/
theorem C171_logged_partial (pre : Text) (ms : List Msg) (d : Dir) (hd : d.Perm (writes pre [] ms)) :
    (∀ w, (linesOf (fileName pre w) (report pre d)).flatten = written ms w) ∧
    (∀ w, ∀ t ∈ linesOf (fileName pre w) (report pre d), t ≠ [] ∧ ∃ b, '\n' ∉ b ∧ (t = b ++ ['\n'] ∨ t = b)) ∧
    (∀ f t, Logged.line f t ∈ report pre d → ∃ m ∈ ms, m.fails = false ∧ f = fileName pre m.wid) ∧
    (Logged.noFiles ∈ report pre d ↔ ∀ m ∈ ms, m.fails = true) := by
  have h := writes_holds pre ms
  have hn : (d.map (·.1)).Nodup := (hd.map _).nodup_iff.2 h.nodup
  have hmem : ∀ x, x ∈ d ↔ x ∈ writes pre [] ms := fun x => hd.mem_iff
  have hnames : ∀ n, n ∈ d.map (·.1) ↔ ∃ m ∈ ms, m.fails = false ∧ n = fileName pre m.wid := by
    intro n; rw [← h.names]; exact (hd.map _).mem_iff
  have hp : ∀ f ∈ d, isErrorFile pre f = true := by
    intro f hf
    obtain ⟨m, -, -, e⟩ := (hnames f.1).1 (List.mem_map.2 ⟨f, hf, rfl⟩)
    unfold isErrorFile
    rw [e]
    exact prefix_fileName pre m.wid
  have hlines : ∀ w, linesOf (fileName pre w) (report pre d) = readlines [] (written ms w) := by
    intro w
    obtain ⟨h1, h2⟩ := linesOf_files pre (fileName pre w) d hn hp
    by_cases hw : fileName pre w ∈ d.map (·.1)
    · obtain ⟨f, hf, e⟩ := List.mem_map.1 hw
      rcases f with ⟨a, t⟩
      simp only at e
      subst e
      rw [h1 t hf, h.content w t ((hmem _).1 hf)]
    · rw [h2 hw, written_none]
      · rfl
      · intro m hm hf e
        exact hw ((hnames _).2 ⟨m, hm, hf, by rw [e]⟩)
  refine ⟨fun w => ?_, fun w => ?_, ?_, ?_⟩
  · rw [hlines, readlines_flatten]; rfl
  · rw [hlines]
    exact readlines_lines [] _ (by simp)
  · intro f t hft
    rw [← hnames]
    unfold report at hft
    rcases List.mem_append.1 hft with hft | hft
    · obtain ⟨g, hg, hgt⟩ := List.mem_flatMap.1 hft
      obtain ⟨t', -, e⟩ := List.mem_map.1 hgt
      obtain ⟨rfl, -⟩ := Logged.line.inj e
      exact List.mem_map.2 ⟨g, (List.mem_filter.1 hg).1, rfl⟩
    · split at hft <;> simp at hft
  · have hnof : Logged.noFiles ∈ report pre d ↔ d = [] := by
      unfold report
      cases d with
      | nil => simp
      | cons f d =>
        have : (f :: d).any (isErrorFile pre) = true := by simp [hp f List.mem_cons_self]
        rw [this]
        simp
    rw [hnof]
    constructor
    · rintro rfl m hm
      cases hf : m.fails with
      | true => rfl
      | false => exact absurd ((hnames _).2 ⟨m, hm, hf, rfl⟩) (by simp)
    · intro hall
      cases hdd : d with
      | nil => rfl
      | cons f l =>
        obtain ⟨m, hm, hf, -⟩ := (hnames f.1).1 (by rw [hdd]; simp)
        rw [hall m hm] at hf; simp at hf

/-- Messages of two workers. -/
def exMsgs : List Msg := [⟨"2".toList, "a\nb".toList, false⟩, ⟨"1".toList, "c\n".toList, false⟩, ⟨"3".toList, "x".toList, true⟩]

example : report "errors-worker".toList (writes "errors-worker".toList [] exMsgs) =
    [.line "errors-worker-2.log".toList "a\n".toList, .line "errors-worker-2.log".toList "b".toList, .line "errors-worker-1.log".toList "c\n".toList] := by
  decide +kernel

example : report "errors-worker".toList (writes "errors-worker".toList [] []) = [.noFiles] := by decide

/-- **C171** (violated): no line end is written after a message: two messages of a worker are logged as one line. -/
theorem C171_lines_violated :
    report "e".toList (writes "e".toList [] [⟨"1".toList, "no server".toList, false⟩, ⟨"1".toList, "interrupted".toList, false⟩]) =
      [.line "e-1.log".toList "no serverinterrupted".toList] := by decide +kernel

/-- **C171** (violated): a worker that fails with an exception without text is not mentioned at all; nor is it said that there are no files. -/
theorem C171_empty_violated : report "e".toList (writes "e".toList [] [⟨"1".toList, [], false⟩]) = [] := by decide +kernel

end Slash.ErrF
