/-!
# Notifications: `slash/plugins/builtin/notifications.py`

The plugin that tells the user about the end of a session, or that a debugger was entered. What is sent is seen as a list of
messages with the service they go to.

Simplifications: `str.format` knows `{name}`, `{{` and `}}` and no attributes or conversions; of the arguments those are kept that
messages of the plugin use. The HTML body of mails is not modelled, nor is the icon sent to Slack. A service may fail, as given by a
parameter; whether the exception is swallowed is that of `exception_handling.py:131-138`. The warning about old names of options
is left out.
-/
namespace Slash.Notify

/-- Text, `notifications.py:54-66`. -/
abbrev Str := List Char

/-- The services, in the order of `notifications.py:98-107`. -/
inductive Service where
  | prowl | nma | pushbullet | email | slack
deriving DecidableEq, Repr

/-- All of them, `notifications.py:98-107,238`. -/
def services : List Service := [.prowl, .nma, .pushbullet, .email, .slack]

/-- `plugin_config.notifications`, `notifications.py:90-107`: the keys by their old and new names. -/
structure Conf where
  threshold : Nat := 5
  onlyFailures : Bool := false
  onPdb : Bool := true
  enabled : Service → Bool := fun s => s == .prowl || s == .nma || s == .pushbullet
  oldKey : Service → Option Str := fun _ => none
  newKey : Service → Option Str := fun _ => none
  smtp : Option Str := none
  toList : List Str := []
  ccList : List Str := []
  slackUrl : Option Str := none
  slackChannel : Option Str := none

/-- The session, `notifications.py:195-205`, and the `backslash` plugin if it is active and has a session (206-211): the address of the
user and the page of the session. -/
structure Session where
  id : Str
  host : Str
  duration : Nat
  success : Bool
  summary : Str
  backslash : Option (Str × Str) := none

/-- Keyword arguments of `format`, `notifications.py:195-205,210,217`. -/
abbrev Kw := List (Str × Str)

/-- The value of a name, as in a `dict`, `notifications.py:63,66`. -/
def Kw.get (kw : Kw) (k : Str) : Option Str := (kw.find? (·.1 = k)).map (·.2)

/-- Where `str.format` is: in plain text, after a `{`, after a `}`, or in a name. `notifications.py:63,66`. -/
inductive Mode where
  | text | opened | closed | name (acc : Str)

/-- `str.format(**kw)`, `notifications.py:63,66`: `none` for `KeyError` and `ValueError`. -/
def fmt (kw : Kw) : Mode → Str → Option Str
  | .text, [] => some []
  | _, [] => none
  | .text, c :: l => if c = '{' then fmt kw .opened l else if c = '}' then fmt kw .closed l else (fmt kw .text l).map (c :: ·)
  | .closed, c :: l => if c = '}' then (fmt kw .text l).map ('}' :: ·) else none
  | .opened, c :: l =>
    if c = '{' then (fmt kw .text l).map ('{' :: ·)
    else if c = '}' then none
    else fmt kw (.name [c]) l
  | .name acc, c :: l =>
    if c = '}' then
      match kw.get acc with
      | some v => (fmt kw .text l).map (v ++ ·)
      | none => none
    else if c = '{' then none
    else fmt kw (.name (acc ++ [c])) l

/-- `_escape_format`, `notifications.py:245-246`. -/
def escape (s : Str) : Str := s.flatMap fun c => if c = '{' then ['{', '{'] else if c = '}' then ['}', '}'] else [c]

/-- `Message`, `notifications.py:54-60`. -/
structure Message where
  title : Str
  body : Str
  kw : Kw
  pdb : Bool
deriving DecidableEq, Repr

/-- `result_str`, `notifications.py:194`. -/
def resultStr (s : Session) (pdb : Bool) : Str :=
  if pdb then "entered PDB".toList else if s.success then "Succeeded".toList else "Failed".toList

/-- The arguments of messages, `notifications.py:195-205,210`. -/
def kwargs (s : Session) (pdb : Bool) : Kw :=
  [("session_id".toList, s.id), ("host_name".toList, s.host), ("result".toList, resultStr s pdb),
   ("results_summary".toList, s.summary.filter (fun c => c ≠ '<' ∧ c ≠ '>'))] ++
  (match s.backslash with | some (_, url) => [("backslash_link".toList, url)] | none => [])

/-- `session_info`, `notifications.py:207-214`. -/
def sessionInfo (s : Session) : Str :=
  match s.backslash with
  | some _ => "Backslash: {backslash_link}".toList
  | none => "Session ID: {session_id}".toList

/-- The title, `notifications.py:216`. -/
def titleStr (s : Session) (pdb : Bool) : Str := "Slash Session on ".toList ++ s.host ++ " has ".toList ++ resultStr s pdb

/-- `_get_message`, `notifications.py:193-218`. -/
def getMessage (s : Session) (short : Str) (pdb : Bool) : Message :=
  { title := titleStr s pdb
    body := short ++ "\n\n".toList ++ sessionInfo s
    kw := kwargs s pdb ++ [("title".toList, titleStr s pdb)]
    pdb := pdb }

/-- The change of the configuration in `_get_message`, `notifications.py:207-208`. -/
def addUser (c : Conf) (s : Session) : Conf :=
  match s.backslash with
  | some (email, _) => { c with toList := c.toList ++ [email] }
  | none => c

/-- The color of a message in Slack, `notifications.py:176`. -/
inductive Color where
  | blue | good | danger
deriving DecidableEq, Repr

/-- Something sent: to a service with a key (`notifications.py:133-156`), a mail (50-51), or a message in Slack (188). -/
inductive Sent where
  | post (to : Service) (key title body : Str)
  | mail (server : Str) (rcpt : List Str) (subject : Str)
  | slack (url channel title body : Str) (color : Color)
deriving DecidableEq, Repr

/-- `_get_from_config_with_legacy` with the test for an empty key, `notifications.py:124-131,135,154`. -/
def key (c : Conf) (sv : Service) : Option Str :=
  match c.oldKey sv with
  | some (a :: l) => some (a :: l)
  | _ =>
    match c.newKey sv with
    | some (a :: l) => some (a :: l)
    | _ => none

/-- How a call ends: `none` if nothing is to be sent, `some none` for an exception before anything is sent,
`notifications.py:144-188`. -/
abbrev Attempt := Option (Option Sent)

/-- Title and body of a message, `notifications.py:62-66`; `none` if formatting fails. -/
def Message.texts (m : Message) : Option (Str × Str) :=
  match fmt m.kw .text m.title, fmt m.kw .text m.body with
  | some t, some b => some (t, b)
  | _, _ => none

/-- The color, `notifications.py:176`. -/
def color (s : Session) (m : Message) : Color := if m.pdb then .blue else if s.success then .good else .danger

/-- What a service is sent, `notifications.py:144-188`. -/
def attempt (c : Conf) (s : Session) (m : Message) : Service → Attempt
  | .email =>
    match fmt m.kw .text m.title with
    | none => some none
    | some t =>
      match c.smtp with
      | none => none
      | some sv => if c.toList = [] then none else some (some (.mail sv (c.toList ++ c.ccList) t))
  | .slack =>
    match c.slackUrl, c.slackChannel with
    | some u, some ch => some (m.texts.map fun (t, b) => .slack u ch t b (color s m))
    | _, _ => none
  | sv =>
    match key c sv with
    | some k => some (m.texts.map fun (t, b) => .post sv k t b)
    | none => none

/-- How a service ends: well, with an exception that is swallowed, or with one that is not (an interruption or a skip,
`exception_handling.py:133-138`). -/
inductive Fate where
  | fine | swallowed | escapes
deriving DecidableEq, Repr

/-- The loop of `_notify_all`, `notifications.py:238-242`: what is sent, and whether an exception gets out. A failure of a service comes
after what was sent to it. -/
def deliver (c : Conf) (s : Session) (m : Message) (fate : Service → Fate) : List Service → List Sent × Bool
  | [] => ([], false)
  | sv :: l =>
    if c.enabled sv then
      match attempt c s m sv with
      | some (some x) =>
        match fate sv with
        | .escapes => ([x], true)
        | _ => (x :: (deliver c s m fate l).1, (deliver c s m fate l).2)
      | _ => deliver c s m fate l
    else deliver c s m fate l

/-- `_notify_all`, `notifications.py:233-242`; the hook `prepare_notification` may change the message, or raise an exception. The
configuration afterwards, what was sent, whether an exception gets out. -/
def notifyAll (c : Conf) (s : Session) (prep : Message → Option Message) (fate : Service → Fate) (short : Str) (pdb : Bool) :
    Conf × List Sent × Bool :=
  match prep (getMessage s short pdb) with
  | none => (addUser c s, [], true)
  | some m => (addUser c s, deliver (addUser c s) s m fate services)

/-- `entering_debugger`, `notifications.py:220-223`; `repr` is that of the exception. -/
def enteringDebugger (c : Conf) (s : Session) (prep : Message → Option Message) (fate : Service → Fate) (repr : Str) : Conf × List Sent × Bool :=
  if c.onPdb then notifyAll c s prep fate (escape repr) true else (c, [], false)

/-- `session_end`, `notifications.py:225-230`. -/
def sessionEnd (c : Conf) (s : Session) (prep : Message → Option Message) (fate : Service → Fate) : Conf × List Sent × Bool :=
  if s.duration < c.threshold then (c, [], false)
  else if s.success && c.onlyFailures then (c, [], false)
  else notifyAll c s prep fate "{results_summary}".toList false

end Slash.Notify
