import Verif.Model.Notify
import Verif.Lemmas.Util
/-!
# C153: notifications
-/
namespace Slash.Notify

/-! ## Formatting -/

theorem fmt_escape (kw : Kw) (s t : Str) : fmt kw .text (escape s ++ t) = (fmt kw .text t).map (s ++ ·) := by
  induction s with
  | nil => simp [escape]
  | cons c s ih =>
    have he : escape (c :: s) = (if c = '{' then ['{', '{'] else if c = '}' then ['}', '}'] else [c]) ++ escape s := rfl
    rw [he, List.append_assoc]
    by_cases h1 : c = '{'
    · subst h1
      simp only [if_true, List.cons_append, List.nil_append, fmt]
      rw [ih, Option.map_map]
      rfl
    · by_cases h2 : c = '}'
      · subst h2
        simp only [if_neg (show ¬('}' = '{') by decide), if_true, List.cons_append, List.nil_append, fmt]
        rw [ih, Option.map_map]
        rfl
      · simp only [if_neg h1, if_neg h2, List.cons_append, List.nil_append, fmt]
        rw [ih, Option.map_map]
        rfl

theorem fmt_plain (kw : Kw) (s t : Str) (h : ∀ c ∈ s, c ≠ '{' ∧ c ≠ '}') : fmt kw .text (s ++ t) = (fmt kw .text t).map (s ++ ·) := by
  have he : escape s = s := by
    clear kw t
    induction s with
    | nil => rfl
    | cons c s ih =>
      have hc := h c List.mem_cons_self
      show (if c = '{' then ['{', '{'] else if c = '}' then ['}', '}'] else [c]) ++ escape s = c :: s
      rw [if_neg hc.1, if_neg hc.2, ih (fun c' h' => h c' (List.mem_cons_of_mem _ h'))]
      rfl
  have := fmt_escape kw s t
  rwa [he] at this

theorem fmt_name_aux (kw : Kw) (n acc t v : Str) (h : ∀ c ∈ n, c ≠ '{' ∧ c ≠ '}') (hv : kw.get (acc ++ n) = some v) :
    fmt kw (.name acc) (n ++ '}' :: t) = (fmt kw .text t).map (v ++ ·) := by
  induction n generalizing acc with
  | nil =>
    rw [List.append_nil] at hv
    simp [fmt, hv]
  | cons c n ih =>
    have hc := h c List.mem_cons_self
    simp only [List.cons_append, fmt, if_neg hc.1, if_neg hc.2]
    exact ih _ (fun c' h' => h c' (List.mem_cons_of_mem _ h')) (by rw [List.append_assoc]; exact hv)

theorem fmt_name (kw : Kw) (n t v : Str) (hn : n ≠ []) (h : ∀ c ∈ n, c ≠ '{' ∧ c ≠ '}') (hv : kw.get n = some v) :
    fmt kw .text ('{' :: (n ++ '}' :: t)) = (fmt kw .text t).map (v ++ ·) := by
  obtain ⟨c, n, rfl⟩ := List.exists_cons_of_ne_nil hn
  have hc := h c List.mem_cons_self
  simp only [fmt, if_true, List.cons_append, if_neg hc.1, if_neg hc.2]
  exact fmt_name_aux kw n [c] t v (fun c' h' => h c' (List.mem_cons_of_mem _ h')) hv

/-- What the end of every message is. -/
def infoText (s : Session) : Str :=
  match s.backslash with
  | some (_, url) => "\n\nBackslash: ".toList ++ url
  | none => "\n\nSession ID: ".toList ++ s.id

theorem fmt_info (s : Session) (pdb : Bool) :
    fmt (getMessage s x pdb).kw .text ("\n\n".toList ++ sessionInfo s) = some (infoText s) := by
  cases hb : s.backslash with
  | none =>
    have : "\n\n".toList ++ sessionInfo s = "\n\nSession ID: ".toList ++ '{' :: ("session_id".toList ++ '}' :: []) := by
      simp only [sessionInfo, hb]; decide
    rw [this, fmt_plain _ _ _ (by decide), fmt_name _ _ _ s.id (by decide) (by decide) (by simp [getMessage, kwargs, Kw.get])]
    simp [fmt, infoText, hb]
  | some p =>
    obtain ⟨email, url⟩ := p
    have : "\n\n".toList ++ sessionInfo s = "\n\nBackslash: ".toList ++ '{' :: ("backslash_link".toList ++ '}' :: []) := by
      simp only [sessionInfo, hb]; decide
    rw [this, fmt_plain _ _ _ (by decide), fmt_name _ _ _ url (by decide) (by decide) (by simp [getMessage, kwargs, Kw.get, hb])]
    simp [fmt, infoText, hb]

/-- **C153** (texts): the message about a debugger has the representation of the exception, whatever characters it has, followed by
where the session is found; the one at the end has the summary of the results. -/
theorem C153_body (s : Session) (repr : Str) :
    fmt (getMessage s (escape repr) true).kw .text (getMessage s (escape repr) true).body = some (repr ++ infoText s) ∧
    fmt (getMessage s "{results_summary}".toList false).kw .text (getMessage s "{results_summary}".toList false).body =
      some (s.summary.filter (fun c => c ≠ '<' ∧ c ≠ '>') ++ infoText s) := by
  constructor
  · show fmt _ .text (escape repr ++ "\n\n".toList ++ sessionInfo s) = _
    rw [List.append_assoc, fmt_escape, fmt_info]
    rfl
  · have : (getMessage s "{results_summary}".toList false).body =
        '{' :: ("results_summary".toList ++ '}' :: ("\n\n".toList ++ sessionInfo s)) := by
      simp [getMessage]
    rw [this, fmt_name _ _ _ (s.summary.filter (fun c => c ≠ '<' ∧ c ≠ '>')) (by decide) (by decide)
      (by simp [getMessage, kwargs, Kw.get]), fmt_info]
    rfl

-- An exception whose representation has braces.
example : fmt (getMessage { id := "s".toList, host := "h".toList, duration := 1, success := true, summary := [] } (escape "KeyError('{x')".toList) true).kw
    .text (getMessage { id := "s".toList, host := "h".toList, duration := 1, success := true, summary := [] } (escape "KeyError('{x')".toList) true).body =
    some "KeyError('{x')\n\nSession ID: s".toList := by
  decide +kernel

/-- The title a message should have. -/
def titleText (s : Session) (pdb : Bool) : Str :=
  "Slash Session on ".toList ++ s.host ++ " has ".toList ++
    (if pdb then "entered PDB".toList else if s.success then "Succeeded".toList else "Failed".toList)

/-- **C153** (titles, partial): the title says on which host, and what happened. Missing: hosts with braces in their names, see
`C153_title_violated`. -/
theorem C153_title_partial (s : Session) (short : Str) (pdb : Bool) (hh : ∀ c ∈ s.host, c ≠ '{' ∧ c ≠ '}') :
    fmt (getMessage s short pdb).kw .text (getMessage s short pdb).title = some (titleText s pdb) := by
  have : (getMessage s short pdb).title = titleText s pdb := rfl
  rw [this]
  have hp : ∀ c ∈ titleText s pdb, c ≠ '{' ∧ c ≠ '}' := by
    have h1 : ∀ c ∈ "Slash Session on ".toList, c ≠ '{' ∧ c ≠ '}' := by decide
    have h2 : ∀ c ∈ " has ".toList, c ≠ '{' ∧ c ≠ '}' := by decide
    have h3 : ∀ c ∈ "entered PDB".toList, c ≠ '{' ∧ c ≠ '}' := by decide
    have h4 : ∀ c ∈ "Succeeded".toList, c ≠ '{' ∧ c ≠ '}' := by decide
    have h5 : ∀ c ∈ "Failed".toList, c ≠ '{' ∧ c ≠ '}' := by decide
    unfold titleText
    generalize "Slash Session on ".toList = a1 at *
    generalize " has ".toList = a2 at *
    generalize "entered PDB".toList = a3 at *
    generalize "Succeeded".toList = a4 at *
    generalize "Failed".toList = a5 at *
    intro c hc
    rcases List.mem_append.1 hc with hc | hc
    · rcases List.mem_append.1 hc with hc | hc
      · rcases List.mem_append.1 hc with hc | hc
        · exact h1 c hc
        · exact hh c hc
      · exact h2 c hc
    · cases pdb
      · cases hs : s.success
        · rw [hs] at hc; exact h5 c hc
        · rw [hs] at hc; exact h4 c hc
      · exact h3 c hc
  have := fmt_plain (getMessage s short pdb).kw (titleText s pdb) [] hp
  rw [List.append_nil] at this
  rw [this]
  simp [fmt]

/-! ## Who is told -/

/-- What a service is to be sent: those with a key if there is one (the old name of the option goes first), the mail if a server and
recipients are given, Slack if an address and a channel are. -/
def want (c : Conf) (s : Session) (t b : Str) (pdb : Bool) : Service → Option Sent
  | .email => if c.toList = [] then none else c.smtp.map fun sv => .mail sv (c.toList ++ c.ccList) t
  | .slack => c.slackUrl.bind fun u => c.slackChannel.map fun ch =>
      .slack u ch t b (if pdb then .blue else if s.success then .good else .danger)
  | sv =>
    if (c.oldKey sv).getD [] ≠ [] then some (.post sv ((c.oldKey sv).getD []) t b)
    else if (c.newKey sv).getD [] ≠ [] then some (.post sv ((c.newKey sv).getD []) t b)
    else none

theorem attempt_eq (c : Conf) (s : Session) (m : Message) (t b : Str) (ht : fmt m.kw .text m.title = some t)
    (hb : fmt m.kw .text m.body = some b) (sv : Service) : attempt c s m sv = (want c s t b m.pdb sv).map some := by
  have hk : ∀ sv, key c sv = if (c.oldKey sv).getD [] ≠ [] then some ((c.oldKey sv).getD [])
      else if (c.newKey sv).getD [] ≠ [] then some ((c.newKey sv).getD []) else none := by
    intro sv
    unfold key
    rcases c.oldKey sv with _ | _ | ⟨a, l⟩ <;> rcases c.newKey sv with _ | _ | ⟨a', l'⟩ <;> simp
  have htx : m.texts = some (t, b) := by simp [Message.texts, ht, hb]
  cases sv with
  | email =>
    simp only [attempt, want, ht]
    cases c.smtp with
    | none => simp
    | some x => by_cases hl : c.toList = [] <;> simp [hl]
  | slack =>
    simp only [attempt, want, htx, color]
    cases c.slackUrl with
    | none => simp
    | some u =>
      cases c.slackChannel with
      | none => simp
      | some ch => rfl
  | prowl =>
    have e : attempt c s m .prowl = match key c .prowl with
        | some k => some (m.texts.map fun (t, b) => .post .prowl k t b)
        | none => none := rfl
    rw [e, hk, htx]
    simp only [want]
    by_cases h1 : (c.oldKey .prowl).getD [] ≠ []
    · simp only [if_pos h1]; rfl
    · simp only [if_neg h1]
      by_cases h2 : (c.newKey .prowl).getD [] ≠ []
      · simp only [if_pos h2]; rfl
      · simp only [if_neg h2]; rfl
  | nma =>
    have e : attempt c s m .nma = match key c .nma with
        | some k => some (m.texts.map fun (t, b) => .post .nma k t b)
        | none => none := rfl
    rw [e, hk, htx]
    simp only [want]
    by_cases h1 : (c.oldKey .nma).getD [] ≠ []
    · simp only [if_pos h1]; rfl
    · simp only [if_neg h1]
      by_cases h2 : (c.newKey .nma).getD [] ≠ []
      · simp only [if_pos h2]; rfl
      · simp only [if_neg h2]; rfl
  | pushbullet =>
    have e : attempt c s m .pushbullet = match key c .pushbullet with
        | some k => some (m.texts.map fun (t, b) => .post .pushbullet k t b)
        | none => none := rfl
    rw [e, hk, htx]
    simp only [want]
    by_cases h1 : (c.oldKey .pushbullet).getD [] ≠ []
    · simp only [if_pos h1]; rfl
    · simp only [if_neg h1]
      by_cases h2 : (c.newKey .pushbullet).getD [] ≠ []
      · simp only [if_pos h2]; rfl
      · simp only [if_neg h2]; rfl

theorem deliver_eq (c : Conf) (s : Session) (m : Message) (t b : Str) (ht : fmt m.kw .text m.title = some t)
    (hb : fmt m.kw .text m.body = some b) (fate : Service → Fate) (hf : ∀ sv, fate sv ≠ .escapes) (l : List Service) :
    deliver c s m fate l = ((l.filter c.enabled).filterMap (want c s t b m.pdb), false) := by
  induction l with
  | nil => rfl
  | cons sv l ih =>
    simp only [deliver, attempt_eq c s m t b ht hb, ih]
    by_cases he : c.enabled sv = true
    · rw [if_pos he, List.filter_cons_of_pos he]
      cases hw : want c s t b m.pdb sv with
      | none => simp [hw]
      | some x =>
        have := hf sv
        cases hfs : fate sv with
        | escapes => exact absurd hfs this
        | fine => simp [hw]
        | swallowed => simp [hw]
    · rw [if_neg he, List.filter_cons_of_neg he]

/-- **C153** (end of the session, partial): nothing is sent after a session shorter than the threshold, nor after a successful one if only
failures are of interest. Otherwise every service that is enabled and set up is sent the message exactly once, even if others fail.
The hooks left the message as it was, and nothing interrupts the plugin. Missing: hosts with braces in their names. -/
theorem C153_session_end_partial (c : Conf) (s : Session) (fate : Service → Fate) (hf : ∀ sv, fate sv ≠ .escapes)
    (hh : ∀ c ∈ s.host, c ≠ '{' ∧ c ≠ '}') :
    (sessionEnd c s some fate).2 =
      (if c.threshold ≤ s.duration ∧ (s.success = false ∨ c.onlyFailures = false) then
        ([Service.prowl, .nma, .pushbullet, .email, .slack].filter c.enabled).filterMap
          (want (addUser c s) s (titleText s false) (s.summary.filter (fun c => c ≠ '<' ∧ c ≠ '>') ++ infoText s) false)
      else [], false) := by
  unfold sessionEnd
  by_cases h1 : s.duration < c.threshold
  · rw [if_pos h1, if_neg (by omega)]
  · rw [if_neg h1]
    by_cases h2 : (s.success && c.onlyFailures) = true
    · rw [if_pos h2, if_neg]
      rintro ⟨-, h⟩
      simp only [Bool.and_eq_true] at h2
      rcases h with h | h
      · rw [h2.1] at h; cases h
      · rw [h2.2] at h; cases h
    · rw [if_neg h2, if_pos]
      · simp only [notifyAll]
        rw [deliver_eq _ s _ _ _ (C153_title_partial s _ false hh) (C153_body s []).2 fate hf]
        have : (addUser c s).enabled = c.enabled := by
          unfold addUser
          split <;> rfl
        rw [this]
        rfl
      · refine ⟨by omega, ?_⟩
        cases hs : s.success <;> cases ho : c.onlyFailures <;> simp_all

/-- **C153** (debugger, partial): the same when a debugger is entered, unless that was switched off. -/
theorem C153_debugger_partial (c : Conf) (s : Session) (repr : Str) (fate : Service → Fate) (hf : ∀ sv, fate sv ≠ .escapes)
    (hh : ∀ c ∈ s.host, c ≠ '{' ∧ c ≠ '}') :
    (enteringDebugger c s some fate repr).2 =
      (if c.onPdb then
        ([Service.prowl, .nma, .pushbullet, .email, .slack].filter c.enabled).filterMap
          (want (addUser c s) s (titleText s true) (repr ++ infoText s) true)
      else [], false) := by
  unfold enteringDebugger
  split
  · simp only [notifyAll]
    rw [deliver_eq _ s _ _ _ (C153_title_partial s _ true hh) (C153_body s repr).1 fate hf]
    have : (addUser c s).enabled = c.enabled := by
      unfold addUser
      split <;> rfl
    rw [this]
    rfl
  · rfl

/-- A session on a host with the given name. -/
def exSession (host : String) (b : Option (Str × Str)) : Session :=
  { id := "s1".toList, host := host.toList, duration := 60, success := false, summary := "<Results: 1 failed>".toList, backslash := b }

/-- Mails and a key for Prowl. -/
def exConf : Conf :=
  { enabled := fun sv => sv == .prowl || sv == .email, newKey := fun _ => some "k".toList, smtp := some "mx".toList,
    toList := ["me".toList], ccList := ["you".toList] }

-- A failed session of a minute; Prowl fails.
example : (sessionEnd exConf (exSession "h" none) some (fun sv => if sv = .prowl then .swallowed else .fine)).2 =
    ([.post .prowl "k".toList "Slash Session on h has Failed".toList "Results: 1 failed\n\nSession ID: s1".toList,
      .mail "mx".toList ["me".toList, "you".toList] "Slash Session on h has Failed".toList], false) := by
  decide +kernel

/-- The code formats the title twice: on a host with a brace in its name nobody is told anything. -/
theorem C153_title_violated :
    ∃ (c : Conf) (s : Session), c.threshold ≤ s.duration ∧ s.success = false ∧ c.enabled .prowl = true ∧ c.newKey .prowl = some "k".toList ∧
      (sessionEnd c s some (fun _ => .fine)).2 = ([], false) :=
  ⟨exConf, exSession "ci{1}" none, by decide, rfl, rfl, rfl, by decide +kernel⟩

/-- An exception that is not swallowed, or one of the user's hook `prepare_notification`, keeps the others from being told. -/
theorem C153_escapes_violated :
    ∃ (c : Conf) (s : Session) (fate : Service → Fate), (∀ sv, sv ≠ .prowl → fate sv = .fine) ∧
      (sessionEnd c s some (fun _ => .fine)).2.1.length = 2 ∧ (sessionEnd c s some fate).2.1.length = 1 ∧ (sessionEnd c s some fate).2.2 = true :=
  ⟨exConf, exSession "h" none, fun sv => if sv = .prowl then .escapes else .fine, fun sv h => if_neg h, by decide +kernel, by decide +kernel,
    by decide +kernel⟩

/-- An exception of the user's hook `prepare_notification` keeps every service from being told, and is not swallowed. -/
theorem C153_hook_violated (c : Conf) (s : Session) (fate : Service → Fate) (h : c.threshold ≤ s.duration) (hs : s.success = false) :
    (sessionEnd c s (fun _ => none) fate).2 = ([], true) := by
  unfold sessionEnd
  rw [if_neg (by omega), if_neg (by simp [hs])]
  rfl

/-- **C153** (names): the hook `prepare_notification` can use the title, the host, the result, the summary and the id of the session in the text. -/
theorem C153_names (s : Session) (short : Str) (pdb : Bool) :
    (getMessage s short pdb).kw.get "title".toList = some (titleText s pdb) ∧ (getMessage s short pdb).kw.get "host_name".toList = some s.host ∧
    (getMessage s short pdb).kw.get "session_id".toList = some s.id ∧ (getMessage s short pdb).kw.get "result".toList = some (resultStr s pdb) ∧
    (getMessage s short pdb).kw.get "results_summary".toList = some (s.summary.filter (fun c => c ≠ '<' ∧ c ≠ '>')) ∧
    (∀ email url, s.backslash = some (email, url) → (getMessage s short pdb).kw.get "backslash_link".toList = some url) := by
  refine ⟨?_, ?_, ?_, ?_, ?_, ?_⟩
  · rcases hb : s.backslash with _ | ⟨e, u⟩ <;> simp [getMessage, kwargs, Kw.get, hb] <;> rfl
  · rcases hb : s.backslash with _ | ⟨e, u⟩ <;> simp [getMessage, kwargs, Kw.get, hb]
  · rcases hb : s.backslash with _ | ⟨e, u⟩ <;> simp [getMessage, kwargs, Kw.get, hb]
  · rcases hb : s.backslash with _ | ⟨e, u⟩ <;> simp [getMessage, kwargs, Kw.get, hb]
  · rcases hb : s.backslash with _ | ⟨e, u⟩ <;> simp [getMessage, kwargs, Kw.get, hb]
  · intro e u hb
    simp [getMessage, kwargs, Kw.get, hb]

/-! ## Recipients of mails -/

/-- Entering debuggers one after another. -/
def debuggers (c : Conf) (s : Session) : Nat → Conf
  | 0 => c
  | n + 1 => (enteringDebugger (debuggers c s n) s some (fun _ => .fine) []).1

/-- **C153** (recipients, partial): without the `backslash` plugin the recipients stay those of the configuration. -/
theorem C153_recipients_partial (c : Conf) (s : Session) (hb : s.backslash = none) (prep : Message → Option Message) (fate : Service → Fate) (repr : Str) :
    (enteringDebugger c s prep fate repr).1 = c ∧ (sessionEnd c s prep fate).1 = c := by
  have h : addUser c s = c := by simp [addUser, hb]
  have hn : ∀ x y, (notifyAll c s prep fate x y).1 = c := by
    intro x y
    unfold notifyAll
    split <;> exact h
  constructor
  · unfold enteringDebugger
    split
    · exact hn _ _
    · rfl
  · unfold sessionEnd
    split
    · rfl
    · split
      · rfl
      · exact hn _ _

/-- With it, the user is added to the recipients again with every message: the one after `n` others has them `n + 1` times. -/
theorem C153_recipients_violated (c : Conf) (s : Session) (email url : Str) (hb : s.backslash = some (email, url)) (hp : c.onPdb = true) (n : Nat) :
    (debuggers c s n).toList = c.toList ++ List.replicate n email := by
  have key : ∀ n, (debuggers c s n).toList = c.toList ++ List.replicate n email ∧ (debuggers c s n).onPdb = true := by
    intro n
    induction n with
    | zero => simp [debuggers, hp]
    | succ n ih =>
      have : debuggers c s (n + 1) = addUser (debuggers c s n) s := by
        simp only [debuggers, enteringDebugger, ih.2, if_true, notifyAll]
      rw [this]
      simp only [addUser, hb]
      refine ⟨?_, ih.2⟩
      rw [ih.1, List.append_assoc, List.replicate_succ']
  exact (key n).1

-- The mail of the second message.
example : (enteringDebugger (debuggers exConf (exSession "h" (some ("u".toList, "b".toList))) 1) (exSession "h" (some ("u".toList, "b".toList))) some
    (fun _ => .fine) "E()".toList).2.1 =
    [.post .prowl "k".toList "Slash Session on h has entered PDB".toList "E()\n\nBackslash: b".toList,
     .mail "mx".toList ["me".toList, "u".toList, "u".toList, "you".toList] "Slash Session on h has entered PDB".toList] := by
  decide +kernel

end Slash.Notify
