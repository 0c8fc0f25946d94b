import Verif.Model.App
/-! The application: C128 (leaving the process as it was), C129 (records and warnings before the session). -/
namespace Slash.App
open Slash.Exit (Exc)

/-! ## C128: the process is left as it was -/

/-- The entries of the exit stack that are always there. -/
def base (w : World) : List Undo := [.sigterm w.sigterm, .showwarning w.showwarning, .prelude]

/-- The exit stacks that can be there after entering. -/
inductive Shape (i : Inp) (w : World) (s : En) : Prop where
  | early (h : s.stack = base w) (c : s.w.contexts = w.contexts) (e : s.exc ≠ none) (a : s.active = false)
  | configured (h : s.stack = .config w.config :: base w) (c : s.w.contexts = w.contexts) (e : s.exc ≠ none) (a : s.active = false)
  | failed (h : s.stack = .config w.config :: base w) (c : s.w.contexts = w.contexts + 1) (e : s.exc ≠ none) (a : s.active = false) (f : i.activate ≠ none)
  | active (h : ∃ v, s.stack = .session v :: .config w.config :: base w) (c : s.w.contexts = w.contexts + 1) (a : s.active = true) (f : i.activate = none)

theorem emit_fields (i : Inp) (s : En) : (emit i s).stack = s.stack ∧ (emit i s).active = s.active ∧ (emit i s).w.contexts = s.w.contexts ∧
    (emit i s).w.quits = s.w.quits ∧ (emit i s).w.summaries = s.w.summaries := by
  unfold emit emitLogs
  simp only
  split <;> simp

theorem enter_shape (i : Inp) (w : World) : Shape i w (enter i w) ∧ (enter i w).w.quits = w.quits ∧ (enter i w).w.summaries = w.summaries := by
  unfold enter stage
  cases h1 : i.site.exc with
  | some e => exact ⟨.early rfl rfl (by simp) rfl, rfl, rfl⟩
  | none =>
    simp only
    cases h2 : i.parse.exc with
    | some e => exact ⟨.early rfl rfl (by simp) rfl, rfl, rfl⟩
    | none =>
      simp only [configure]
      cases h3 : i.overrideExc with
      | some e => exact ⟨.early rfl rfl (by simp) rfl, rfl, rfl⟩
      | none =>
        simp only [stage]
        cases h4 : i.configure.exc with
        | some e => exact ⟨.configured rfl rfl (by simp) rfl, rfl, rfl⟩
        | none =>
          simp only [activate]
          cases h5 : i.activate with
          | some e => exact ⟨.failed rfl rfl (by simp) rfl (by simp [h5]), rfl, rfl⟩
          | none =>
            obtain ⟨e1, e2, e3, e4, e5⟩ := emit_fields i
              { stack := .session (runUser i.configure { runUser i.parse (runUser i.site { w with bound := true, enabled := true, showwarning := i.appShow, sigterm := some i.appSig }) with
                  config := i.override w.config }).showwarning :: .config w.config :: base w,
                w := { runUser i.configure { runUser i.parse (runUser i.site { w with bound := true, enabled := true, showwarning := i.appShow, sigterm := some i.appSig }) with
                  config := i.override w.config } with contexts := w.contexts + 1, showwarning := i.sessShow }, active := true }
            exact ⟨.active ⟨_, e1⟩ e3 e2 h5, e4, e5⟩

/-- What is the same again: the handlers of SIGTERM and of warnings, the configuration, the stack of log handlers. -/
def Restored (w w' : World) : Prop := w'.sigterm = w.sigterm ∧ w'.showwarning = w.showwarning ∧ w'.config = w.config ∧ w'.bound = false

theorem leave_spec (i : Inp) (w : World) (s : En) (hs : Shape i w s) (hsig : w.sigterm ≠ none) (hc : s.stack = base w → s.w.config = w.config) :
    Restored w (leave i s).1 ∧
    (i.activate = none → i.deactivate = none → (leave i s).1.contexts = w.contexts ∧ (leave i s).1.quits = s.w.quits + 1) := by
  obtain ⟨h, hh⟩ := Option.ne_none_iff_exists'.1 hsig
  unfold leave Restored
  cases hs with
  | early h c e a =>
    have := hc h
    rw [h]
    simp [base, hh, unwind, this, c]
  | configured h c e a => rw [h]; simp [base, hh, unwind, c]
  | failed h c e a f => rw [h]; simp [base, hh, unwind, f]
  | active h c a f =>
    obtain ⟨v, h⟩ := h
    rw [h]
    cases hd : i.deactivate <;> simp [base, hh, unwind, hd, c]

theorem exit_spec (i : Inp) (w : World) (s : En) (e : Option Exc) (hs : Shape i w s) (hsig : w.sigterm ≠ none) (hc : s.stack = base w → s.w.config = w.config)
    (hd : escapes i.debug = none) (hr : i.report = none) (hm : i.summary = none) :
    Restored w (exit i e s).1 ∧
    (i.activate = none → i.deactivate = none → (exit i e s).1.contexts = w.contexts ∧ (exit i e s).1.quits = s.w.quits + 1) := by
  unfold exit
  rw [hd]
  cases e with
  | none => exact leave_spec i w s hs hsig hc
  | some e =>
    simp only [hr, hm, ite_self]
    have hs' : Shape i w { s with w := { s.w with summaries := s.w.summaries + 1 } } := by
      cases hs with
      | early h c e a => exact .early h c e a
      | configured h c e a => exact .configured h c e a
      | failed h c e a f => exact .failed h c e a f
      | active h c a f => exact .active h c a f
    exact leave_spec i w _ hs' hsig hc

theorem enter_config (i : Inp) (w : World) (h : (enter i w).stack = base w) : (enter i w).w.config = w.config := by
  revert h
  unfold enter stage
  cases h1 : i.site.exc with
  | some e => intro _; rfl
  | none =>
    simp only
    cases h2 : i.parse.exc with
    | some e => intro _; rfl
    | none =>
      simp only [configure]
      cases h3 : i.overrideExc with
      | some e => intro _; rfl
      | none =>
        simp only [stage]
        cases h4 : i.configure.exc with
        | some e => intro h; simp [base] at h
        | none =>
          simp only [activate]
          cases h5 : i.activate with
          | some e => intro h; simp [base] at h
          | none => intro h; rw [(emit_fields i _).1] at h; simp [base] at h

theorem shape_user (i : Inp) (w : World) (s : En) (u : User) (hs : Shape i w s) : Shape i w { s with w := runUser u s.w } := by
  cases hs with
  | early h c e a => exact .early h c e a
  | configured h c e a => exact .configured h c e a
  | failed h c e a f => exact .failed h c e a f
  | active h c a f => exact .active h c a f

/-- Flushing fails for no record. -/
def Sound (i : Inp) : Prop := ∀ d r, i.breaks d r = false

theorem flush_sound (i : Inp) (h : Sound i) (d : Dest) (rs : List Nat) : flush i d rs = ((rs.filter (i.takes d)).map (fun r => (d, r)), false) := by
  induction rs with
  | nil => rfl
  | cons r rs ih =>
    unfold flush
    rw [ih, h d r, List.filter_cons]
    cases i.takes d r <;> simp

theorem emitLogs_sound (i : Inp) (h : Sound i) (s : En) : emitLogs i s =
    { s with w := { s.w with enabled := false, retained := [],
                             delivered := s.w.delivered ++ (s.w.retained.filter (i.takes (if s.active && i.hasLog then .session else .console))).map
                               (fun r => ((if s.active && i.hasLog then .session else .console), r)) }, exc := none } := by
  unfold emitLogs
  rw [flush_sound i h]
  rfl

/-- However `with app` ends — arguments that cannot be parsed, exceptions of `.slashrc`, of plugins, of the block, of hooks, interruptions — and whatever user code did to
the handlers, afterwards the handlers of SIGTERM and of warnings, the configuration and the log handlers are as they were, provided that nothing
fails while the end itself is reported. If the session could be activated and its log files closed, there are as many contexts as before, and `app_quit` was triggered
exactly once. -/
theorem C128_restored_partial (i : Inp) (w : World) (hsig : w.sigterm ≠ none) (hb : Sound i)
    (hd : escapes i.debug = none) (hr : i.report = none) (hm : i.summary = none) :
    Restored w (withApp i w).1 ∧
    (i.activate = none → i.deactivate = none → (withApp i w).1.contexts = w.contexts ∧ (withApp i w).1.quits = w.quits + 1) := by
  obtain ⟨hs, hq, -⟩ := enter_shape i w
  have hcfg := enter_config i w
  unfold withApp
  simp only
  cases he : (enter i w).exc with
  | none =>
    have := exit_spec i w _ i.body.exc (shape_user i w _ i.body hs) hsig hcfg hd hr hm
    refine ⟨this.1, fun a d => ⟨(this.2 a d).1, (this.2 a d).2.trans ?_⟩⟩
    simp [runUser, hq]
  | some e =>
    simp only [emitLogs_sound i hb]
    have hs' : ∀ (d : List (Dest × Nat)), Shape i w { (enter i w) with w := { (enter i w).w with enabled := false, retained := [], delivered := d }, exc := some e } := by
      intro d
      cases hs with
      | early h c e a => exact .early h c (by simp) a
      | configured h c e a => exact .configured h c (by simp) a
      | failed h c e a f => exact .failed h c (by simp) a f
      | active h c a f => exact .active h c a f
    have := fun d => exit_spec i w _ (some e) (hs' d) hsig hcfg hd hr hm
    refine ⟨(this _).1, fun a d => ⟨((this _).2 a d).1, ((this _).2 a d).2.trans ?_⟩⟩
    exact congrArg (· + 1) hq

/-- If closing the log files of the session fails, the handlers and the configuration are restored all the same. -/
example : ∃ i w, i.deactivate = some .exception ∧ (withApp i w).1.sigterm = w.sigterm ∧ (withApp i w).1.showwarning = w.showwarning ∧ (withApp i w).1.config = w.config ∧
    (enter i w).w.config = 9 :=
  ⟨{ appSig := 1, appShow := 2, sessShow := 3, override := fun _ => 9, deactivate := some .exception, body := { exc := some .interruption, sig := fun _ => some 8 } }, {}, by decide⟩

/-- The full claim is false: if a callback of `result_summary` raises, nothing is undone and `app_quit` is not triggered; a handler of SIGTERM that was not installed by
Python is not put back; if the session cannot be activated, its context stays; if closing its log files fails, `app_quit` is not triggered. -/
theorem C128_restored_violated :
    (∃ i : Inp, i.summary = some .exception ∧ (withApp i {}).1.sigterm ≠ some 0 ∧ (withApp i {}).1.showwarning ≠ 0 ∧ (withApp i {}).1.contexts = 1 ∧ (withApp i {}).1.quits = 0) ∧
    (∃ i : Inp, (withApp i { sigterm := none }).1.sigterm ≠ none ∧ (withApp i { sigterm := none }).2 = none) ∧
    (∃ i : Inp, i.activate = some .exception ∧ (withApp i {}).1.contexts = 1) ∧
    (∃ i : Inp, i.deactivate = some .exception ∧ (withApp i {}).1.quits = 0) :=
  ⟨⟨{ appSig := 1, appShow := 2, sessShow := 3, summary := some .exception, body := { exc := some .exception } }, by decide⟩,
   ⟨{ appSig := 1, appShow := 2, sessShow := 3 }, by decide⟩,
   ⟨{ appSig := 1, appShow := 2, sessShow := 3, activate := some .exception }, by decide⟩,
   ⟨{ appSig := 1, appShow := 2, sessShow := 3, deactivate := some .exception }, by decide⟩⟩

/-- `result_summary` is triggered by the application exactly if something was raised. -/
theorem C128_summary (i : Inp) (w : World) (hb : Sound i) (hd : escapes i.debug = none) (hr : i.report = none) :
    (withApp i w).1.summaries = w.summaries + if (enter i w).exc = none ∧ i.body.exc = none then 0 else 1 := by
  obtain ⟨-, -, hq⟩ := enter_shape i w
  have hun : ∀ st w, (unwind i st w).1.summaries = w.summaries := by
    intro st
    induction st with
    | nil => intro w; rfl
    | cons u st ih =>
      intro w
      cases u with
      | prelude => exact ih _
      | showwarning v => exact ih _
      | sigterm p => cases p <;> exact ih _
      | config v => exact ih _
      | session v =>
        unfold unwind
        split <;> exact ih _
  have hl : ∀ s, (leave i s).1.summaries = s.w.summaries := by
    intro s
    unfold leave
    simp only
    split <;> exact hun _ _
  have hex : ∀ e s, (exit i (some e) s).1.summaries = s.w.summaries + 1 := by
    intro e s
    unfold exit
    rw [hd]
    simp only [hr, ite_self]
    split
    · rfl
    · exact hl _
  unfold withApp
  simp only
  cases he : (enter i w).exc with
  | none =>
    simp only [true_and]
    cases hbe : i.body.exc with
    | none =>
      simp only [if_true, exit, hd]
      rw [hl]
      simp [runUser, hq]
    | some e => rw [hex]; simp [runUser, hq]
  | some e =>
    simp only [emitLogs_sound i hb]
    rw [hex]
    simp [hq]

/-- An exception of the debugger changes nothing. -/
theorem C128_debugger (i : Inp) (w : World) : withApp { i with debug := some .exception } w = withApp { i with debug := none } w := by
  have h1 : ∀ u st w, unwind { i with debug := u } st w = unwind i st w := by
    intro u st
    induction st with
    | nil => intro w; rfl
    | cons x st ih =>
      intro w
      cases x with
      | prelude => exact ih _
      | showwarning v => exact ih _
      | sigterm p => cases p <;> exact ih _
      | config v => exact ih _
      | session v => simp only [unwind, ih]
  have h2 : ∀ u rs d, flush { i with debug := u } d rs = flush i d rs := by
    intro u rs d
    induction rs with
    | nil => rfl
    | cons r rs ih => simp only [flush, ih]
  have h3 : ∀ u l, emitWarnings { i with debug := u } l = emitWarnings i l := by
    intro u l
    induction l with
    | nil => rfl
    | cons r rs ih => simp only [emitWarnings, ih]
  have h4 : ∀ u s, emitLogs { i with debug := u } s = emitLogs i s := by intro u s; simp only [emitLogs, h2]
  have h5 : ∀ u s, emit { i with debug := u } s = emit i s := by intro u s; simp only [emit, h3, h4]
  have h6 : ∀ u s, activate { i with debug := u } s = activate i s := by intro u s; simp only [activate, h5]
  have h7 : ∀ u s, configure { i with debug := u } s = configure i s := by
    intro u s
    have : activate { i with debug := u } = activate i := funext (h6 u)
    simp only [configure, this]
  have h8 : ∀ u w, enter { i with debug := u } w = enter i w := by
    intro u w
    have : configure { i with debug := u } = configure i := funext (h7 u)
    simp only [enter, this]
  unfold withApp
  simp only [h8, h4]
  have h9 : ∀ e s, exit { i with debug := some .exception } e s = exit { i with debug := none } e s := by
    intro e s
    simp only [exit, escapes, leave, h1]
  simp only [h9]

/-- A message is reported only for ordinary exceptions, not for interruptions and the like: if reporting raises, that gets out and nothing is undone, but
for other exceptions it is not even tried, and all goes on to `app_quit`. -/
theorem C128_report (i : Inp) (w : World) (e : Exc) (hen : (enter i w).exc = none) (hb : i.body.exc = some e) (hd : escapes i.debug = none) :
    (e = .exception → ∀ x, i.report = some x → withApp i w = (runUser i.body (enter i w).w, some x)) ∧
    (e ≠ .exception → i.summary = none → i.deactivate = none → (withApp i w).2 = i.quit) := by
  constructor
  · rintro rfl x hx
    simp only [withApp, hen, hb, exit, hd, hx, if_true]
  · intro hne hs hda
    have hun : ∀ st w, (unwind i st w).2 = none := by
      intro st
      induction st with
      | nil => intro w; rfl
      | cons u st ih =>
        intro w
        cases u with
        | prelude => exact ih _
        | showwarning v => exact ih _
        | sigterm p => cases p <;> exact ih _
        | config v => exact ih _
        | session v => simp only [unwind, hda]; exact ih _
    simp only [withApp, hen, hb, exit, hd, if_neg hne, hs, leave, hun]

example : (withApp { appSig := 1, appShow := 2, sessShow := 3, report := some .interruption, body := { exc := some .interruption } } {}).1.quits = 1 ∧
    (withApp { appSig := 1, appShow := 2, sessShow := 3, report := some .interruption, body := { exc := some .exception } } {}).1.quits = 0 := by decide

/-- If entering fails, `with app` does: with the exception of entering, unless leaving raises one. -/
theorem C128_failure (i : Inp) (w : World) (e : Exc) (h : (enter i w).exc = some e) :
    ∃ x, (withApp i w).2 = some x ∧
      (Sound i → escapes i.debug = none → i.report = none → i.summary = none → i.quit = none → i.deactivate = none → x = e) := by
  unfold withApp
  simp only [h]
  cases hf : (emitLogs i (enter i w)).exc with
  | some x =>
    refine ⟨x, rfl, fun hs => ?_⟩
    rw [emitLogs_sound i hs] at hf
    cases hf
  | none =>
    refine ⟨_, rfl, fun _ h1 h2 h3 h4 h5 => ?_⟩
    have hun : ∀ st w, (unwind i st w).2 = none := by
      intro st
      induction st with
      | nil => intro w; rfl
      | cons u st ih =>
        intro w
        cases u with
        | prelude => exact ih _
        | showwarning v => exact ih _
        | sigterm p => cases p <;> exact ih _
        | config v => exact ih _
        | session v => simp only [unwind, h5]; exact ih _
    have : ∀ s, (exit i (some e) s).2 = none := by
      intro s
      simp only [exit, h1, h2, h3, ite_self, leave]
      rw [hun]
      exact h4
    rw [this]
    rfl

example : (withApp { appSig := 1, appShow := 2, sessShow := 3, parse := { exc := some .exception } } {}).2 = some .exception ∧
    (withApp { appSig := 1, appShow := 2, sessShow := 3, parse := { exc := some .exception }, quit := some .interruption } {}).2 = some .interruption := by decide

/-! ## C129: records and warnings before the session -/

/-- What is logged before the session is active. -/
def logged (i : Inp) : List Nat :=
  i.site.logs ++ match i.site.exc with
    | some _ => []
    | none => i.parse.logs ++ match i.parse.exc, i.overrideExc with
      | none, none => i.configure.logs
      | _, _ => []

/-- The session gets active. -/
def reaches (i : Inp) : Bool := i.site.exc.isNone && i.parse.exc.isNone && i.overrideExc.isNone && i.configure.exc.isNone && i.activate.isNone

theorem emit_sound (i : Inp) (h : Sound i) (s : En) : (emit i s).w.delivered = (emitLogs i s).w.delivered ∧ (emit i s).w.retained = [] ∧
    (emit i s).w.warnings = s.w.warnings ++ (emitWarnings i s.w.recorded).1 ∧ (emit i s).exc = (emitWarnings i s.w.recorded).2 := by
  unfold emit
  rw [emitLogs_sound i h]
  simp

/-- Where the records go. -/
def dest (i : Inp) : Dest := if reaches i && i.hasLog then .session else .console

theorem enter_logs (i : Inp) (w : World) (h : Sound i) (hw : w.retained = []) :
    (reaches i = false → (enter i w).w.retained = logged i ∧ (enter i w).w.delivered = w.delivered ∧ (enter i w).active = false ∧ (enter i w).exc ≠ none) ∧
    (reaches i = true → (enter i w).w.retained = [] ∧
      (enter i w).w.delivered = w.delivered ++ ((logged i).filter (i.takes (dest i))).map (fun r => (dest i, r))) := by
  unfold enter stage reaches logged dest
  cases h1 : i.site.exc with
  | some e => simp [runUser, hw]
  | none =>
    simp only
    cases h2 : i.parse.exc with
    | some e => simp [runUser, hw]
    | none =>
      simp only [configure]
      cases h3 : i.overrideExc with
      | some e => simp [runUser, hw]
      | none =>
        simp only [stage]
        cases h4 : i.configure.exc with
        | some e => simp [runUser, hw]
        | none =>
          simp only [activate]
          cases h5 : i.activate with
          | some e => simp [runUser, hw]
          | none =>
            simp only [(emit_sound i h _).1, (emit_sound i h _).2.1, emitLogs_sound i h]
            simp [runUser, hw, reaches, h1, h2, h3, h4, h5]

theorem unwind_logs (i : Inp) (st : List Undo) (w : World) :
    (unwind i st w).1.delivered = w.delivered ∧ (unwind i st w).1.warnings = w.warnings := by
  induction st generalizing w with
  | nil => exact ⟨rfl, rfl⟩
  | cons u st ih =>
    cases u with
    | prelude => exact ih _
    | showwarning v => exact ih _
    | sigterm p => cases p <;> exact ih _
    | config v => exact ih _
    | session v =>
      unfold unwind
      split <;> exact ih _

theorem exit_logs (i : Inp) (e : Option Exc) (s : En) : (exit i e s).1.delivered = s.w.delivered ∧ (exit i e s).1.warnings = s.w.warnings := by
  have hl : ∀ s, (leave i s).1.delivered = s.w.delivered ∧ (leave i s).1.warnings = s.w.warnings := by
    intro s
    unfold leave
    simp only
    split <;> exact unwind_logs _ _ _
  unfold exit
  split
  · exact ⟨rfl, rfl⟩
  · split
    · exact hl _
    · split
      · exact ⟨rfl, rfl⟩
      · simp only
        split
        · exact ⟨rfl, rfl⟩
        · exact hl _

/-- Every record of the time before the session is delivered exactly once and in order, whatever happens afterwards: to the log of the session if it got active and has one,
else to the console; provided that no delivery fails. -/
theorem C129_logs_partial (i : Inp) (w : World) (h : Sound i) (hw : w.retained = []) :
    (withApp i w).1.delivered = w.delivered ++ ((logged i).filter (i.takes (dest i))).map (fun r => (dest i, r)) := by
  obtain ⟨h1, h2⟩ := enter_logs i w h hw
  unfold withApp
  simp only
  cases hr : reaches i with
  | false =>
    obtain ⟨a, b, c, d⟩ := h1 hr
    cases he : (enter i w).exc with
    | none => exact absurd he d
    | some e =>
      simp only [emitLogs_sound i h, (exit_logs i _ _).1, a, b, c]
      simp [dest, hr]
  | true =>
    obtain ⟨a, b⟩ := h2 hr
    cases he : (enter i w).exc with
    | none => simp only [(exit_logs i _ _).1]; exact b
    | some e =>
      simp only [emitLogs_sound i h, (exit_logs i _ _).1, a, b]
      simp

example : (withApp { appSig := 1, appShow := 2, sessShow := 3, site := { logs := [7, 8] }, parse := { logs := [9] } } {}).1.delivered = [(.session, 7), (.session, 8), (.session, 9)] ∧
    (withApp { appSig := 1, appShow := 2, sessShow := 3, site := { logs := [7, 8] }, parse := { logs := [9], exc := some .exception }, configure := { logs := [4] } } {}).1.delivered =
      [(.console, 7), (.console, 8), (.console, 9)] := by decide

/-- The full claim is false: if the delivery of a record fails, those before it are delivered twice and those after it never. -/
theorem C129_logs_violated : ∃ i w, (withApp i w).1.delivered = [(.session, 7), (.session, 7)] ∧ logged i = [7, 8, 9] :=
  ⟨{ appSig := 1, appShow := 2, sessShow := 3, site := { logs := [7, 8, 9] }, breaks := fun _ r => r == 8 }, {}, by decide⟩

/-- What is warned about before the session is active. -/
def warned (i : Inp) : List Nat := i.site.warns ++ i.parse.warns ++ i.configure.warns

theorem emitWarnings_eq (i : Inp) (l : List Nat) (h : ∀ x ∈ l, i.ignored x = false → i.hook x = none) : emitWarnings i l = (l.filter (fun x => !i.ignored x), none) := by
  induction l with
  | nil => rfl
  | cons x l ih =>
    unfold emitWarnings
    rw [ih (fun y hy => h y (by simp [hy])), List.filter_cons]
    cases hi : i.ignored x with
    | true => simp
    | false => simp [h x (by simp) hi]

/-- Every warning of the time before the session that is not ignored (also by what was configured after it) is one of the session, once and in order, if the
session gets active and the hook `warning_added` does not raise. -/
theorem C129_warnings_partial (i : Inp) (w : World) (h : Sound i) (hw : w.recorded = []) (hr : reaches i = true)
    (hh : ∀ x ∈ warned i, i.ignored x = false → i.hook x = none) :
    (withApp i w).1.warnings = w.warnings ++ (warned i).filter (fun x => !i.ignored x) := by
  have he : (enter i w).w.warnings = w.warnings ++ (warned i).filter (fun x => !i.ignored x) ∧ (enter i w).exc = none := by
    have hr' := hr
    simp only [reaches, Bool.and_eq_true, Option.isNone_iff_eq_none] at hr'
    obtain ⟨⟨⟨⟨h1, h2⟩, h3⟩, h4⟩, h5⟩ := hr'
    have hx := emitWarnings_eq i (warned i) hh
    unfold warned at hx
    unfold enter stage
    simp only [h1, h2, configure, h3, stage, h4, activate, h5]
    rw [(emit_sound i h _).2.2.1, (emit_sound i h _).2.2.2]
    simp only [runUser, hw, List.nil_append, hx, warned]
    exact ⟨trivial, trivial⟩
  unfold withApp
  simp only [he.2]
  rw [(exit_logs i _ _).2]
  exact he.1

example : (withApp { appSig := 1, appShow := 2, sessShow := 3, site := { warns := [7, 8] }, configure := { warns := [9] }, ignored := fun x => x == 8 } {}).1.warnings = [7, 9] := by decide

/-- The full claim is false: if entering fails they are lost, and if the hook raises for one of them, so are it and those after it. -/
theorem C129_warnings_violated :
    (∃ i w, (withApp i w).1.warnings = [] ∧ i.site.warns = [7] ∧ i.parse.exc = some .exception) ∧
    ∃ i w, (withApp i w).1.warnings = [7] ∧ warned i = [7, 8, 9] :=
  ⟨⟨{ appSig := 1, appShow := 2, sessShow := 3, site := { warns := [7] }, parse := { exc := some .exception } }, {}, by decide⟩,
   ⟨{ appSig := 1, appShow := 2, sessShow := 3, site := { warns := [7, 8, 9] }, hook := fun x => if x = 8 then some .exception else none }, {}, by decide⟩⟩

end Slash.App
