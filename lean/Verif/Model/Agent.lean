import Verif.Model.Sanitize

/-!
# The question window of the policy agent (qrexec/tools/qrexec_policy_agent.py)

GTK is modelled by the signals it sends to the callbacks of the program: time passes, a timer that is due fires, the window
gains or loses the focus, the user selects or types a name, presses a button or a key, and the window is deleted.
-/
namespace Qrexec

/-- The parameters of `policy.Ask` (qrexec_policy_agent.py:593-602).  `icons` are the keys of the dict of icons. -/
structure Question where
  source : Str
  service : Str
  argument : Str
  targets : List Str
  defaultTarget : Str
  icons : List Str
  deriving DecidableEq, Repr

/-- `GtkOneTimerHelper`, `FocusStealingHelper` (qrexec_policy_agent.py:269-348) and what they control: the time, the timers
that were started with `GLib.timeout_add` and have not fired (identifier and the time they are due), and whether the OK
button is sensitive. -/
structure FocusHelper where
  now : Nat := 0
  timers : List (Nat × Nat) := []
  currentTimer : Nat := 0
  completed : Bool := false
  targetSensitivity : Bool := false
  buttonSensitive : Bool := false
  deriving DecidableEq, Repr

/-- qrexec_policy_agent.py:292-298 `_timer_schedule`, with `wait_seconds=1` (538-539). -/
def FocusHelper.schedule (h : FocusHelper) : FocusHelper :=
  { h with currentTimer := h.currentTimer + 1, timers := h.timers ++ [(h.currentTimer + 1, h.now + 1000)] }

/-- qrexec_policy_agent.py:315-322 `_window_changed_focus`. -/
def FocusHelper.changedFocus (h : FocusHelper) (focused : Bool) : FocusHelper :=
  let h := { h with buttonSensitive := false, completed := false }
  if focused then h.schedule else { h with currentTimer := h.currentTimer + 1 }

/-- qrexec_policy_agent.py:282-287, 338-339 `_timer_check_run`, `_timer_run`. -/
def FocusHelper.timerCheckRun (h : FocusHelper) (id : Nat) : FocusHelper :=
  if h.currentTimer = id then { h with buttonSensitive := h.targetSensitivity, completed := true } else h

/-- A timer fires (once: the callback returns `None`), not before it is due. -/
def FocusHelper.fire (h : FocusHelper) (i : Nat) : FocusHelper :=
  match h.timers[i]? with
  | none => h
  | some t => if h.now < t.2 then h else ({ h with timers := h.timers.eraseIdx i }).timerCheckRun t.1

/-- qrexec_policy_agent.py:341-345 `request_sensitivity`. -/
def FocusHelper.requestSensitivity (h : FocusHelper) (s : Bool) : FocusHelper :=
  if h.completed || !s then { h with buttonSensitive := s, targetSensitivity := s }
  else { h with targetSensitivity := s }

/-- The name shown for a target (qrexec_policy_agent.py:88-101). -/
def entryName (name : Str) : Str :=
  if startsWith c!"@dispvm:" name then c!"Disposable VM (" ++ name.drop 8 ++ c!")" else name

/-- qrexec_policy_agent.py:86-106 `_create_entries`: displayed name and API name, in the order of the icons. -/
def createEntries : List Str → Except Err (List (Str × Str))
  | [] => .ok []
  | name :: rest => do
    let _ ← sanitizeDomainName (if startsWith c!"@dispvm:" name then name.drop 8 else name) true
    let es ← createEntries rest
    return (entryName name, name) :: es

/-- `self._entries[key]["api_name"]`: the last assignment counts. -/
def entryFor (es : List (Str × Str)) (key : Str) : Option Str :=
  (es.reverse.find? fun e => e.1 = key).map Prod.snd

/-- The window: the helper, the content of the combo box (selected identifier, text of its entry), the target to be
answered, the decision, whether the window was asked to close and whether it is gone. -/
structure Win where
  entries : List (Str × Str)
  whitelist : List Str
  helper : FocusHelper := {}
  active : Option Str := none
  text : Str := []
  targetName : Option Str := none
  confirmed : Option Bool := none
  closing : Bool := false
  gone : Bool := false
  deriving DecidableEq, Repr

/-- One of the two tests in `_get_valid_qube_name` (qrexec_policy_agent.py:114-118, 123-127). -/
def validEntry (es : List (Str × Str)) (whitelist : List Str) (key : Str) : Bool :=
  match entryFor es key with
  | none => false
  | some api => whitelist.contains api

/-- qrexec_policy_agent.py:108-129 `_get_valid_qube_name`. -/
def validQubeName (w : Win) : Option Str :=
  match w.active with
  | some sel =>
    if !sel.isEmpty && validEntry w.entries w.whitelist sel then some sel
    else if validEntry w.entries w.whitelist w.text then some w.text else none
  | none => if validEntry w.entries w.whitelist w.text then some w.text else none

/-- qrexec_policy_agent.py:396-404 `_update_ok_button_sensitivity`. -/
def Win.updateOk (w : Win) (data : Option Str) : Win :=
  { w with targetName := data, helper := w.helper.requestSensitivity data.isSome }

/-- qrexec_policy_agent.py:131-151 `_combo_change` (without the icon).  `if not name` also holds for an empty name. -/
def Win.comboChange (w : Win) : Win :=
  match validQubeName w with
  | some name => if name.isEmpty then w.updateOk none else w.updateOk (entryFor w.entries name)
  | none => w.updateOk none

/-- The user selects an entry or edits the text; GTK then sends `changed`. -/
def Win.select (w : Win) (active : Option Str) (text : Str) : Win :=
  ({ w with active := active, text := text }).comboChange

/-- qrexec_policy_agent.py:368-375 `_clicked_ok`; `_close` (514-515) asks GTK to delete the window later. -/
def Win.clickedOk (w : Win) : Win :=
  if w.helper.completed then { w with confirmed := some true, closing := true } else w

/-- qrexec_policy_agent.py:377-384 `_clicked_cancel`, 386-394 `_key_pressed` for the Escape key. -/
def Win.clickedCancel (w : Win) : Win :=
  if w.helper.completed then { w with confirmed := some false, closing := true } else w

/-- qrexec_policy_agent.py:153-157 `_entry_activate`. -/
def Win.entryActivate (w : Win) : Win :=
  match validQubeName w with
  | some name => if name.isEmpty then w else w.clickedOk
  | none => w

/-- What happens to the window.  `deleted`: by the window manager at any time, or because of `_close`. -/
inductive GuiEvent where
  | tick (ms : Nat)
  | fire (i : Nat)
  | focus (focused : Bool)
  | select (active : Option Str) (text : Str)
  | okPress
  | activate
  | cancelPress
  | escape
  | otherKey
  | deleted
  deriving DecidableEq, Repr

/-- The callbacks connected to the signals (qrexec_policy_agent.py:219-228, 241-247, 310, 324-336, 446-451, 517-529).
GTK does not send `clicked` for a button that is not sensitive; a deleted window sends nothing. -/
def Win.step (w : Win) (e : GuiEvent) : Win :=
  if w.gone then w
  else match e with
    | .tick ms => { w with helper := { w.helper with now := w.helper.now + ms } }
    | .fire i => { w with helper := w.helper.fire i }
    | .focus f => { w with helper := w.helper.changedFocus f }
    | .select a t => w.select a t
    | .okPress => if w.helper.buttonSensitive then w.clickedOk else w
    | .activate => w.entryActivate
    | .cancelPress => w.clickedCancel
    | .escape => w.clickedCancel
    | .otherKey => w
    | .deleted => { w with gone := true }

def Win.run (w : Win) (evs : List GuiEvent) : Win := evs.foldl Win.step w

/-- qrexec_policy_agent.py:420-441 `_set_initial_target`: the first row of the list with this API name.  (The rows are sorted
by their names, but API names are keys of a dict: there is at most one row.) -/
def Win.setInitialTarget (w : Win) (source target : Str) : Win :=
  if target.isEmpty then w
  else if target = source then w
  else match w.entries.find? fun e => e.2 = target && w.whitelist.contains e.2 with
    | none => w
    | some e => w.select (some e.1) e.1

/-- qrexec_policy_agent.py:453-512 `RPCConfirmationWindow.__init__`: exceptions for names that are not sanitized and for a
source without icon (254-266). -/
def mkWindow (p : Question) : Except Err Win := do
  let _ ← sanitizeDomainName p.source true
  let _ ← sanitizeServiceName p.service true
  let es ← createEntries p.icons
  let w : Win := ({ entries := es, whitelist := p.targets } : Win).comboChange
  require ((entryFor es p.source).isSome) .valueError
  return w.setInitialTarget p.source p.defaultTarget

/-- qrexec_policy_agent.py:541-547 `confirm_rpc` and 605-614 of `handle_ask`, once the window is deleted. -/
def Win.answer (w : Win) : Str :=
  match w.confirmed, w.targetName with
  | some true, some t => if t.isEmpty then c!"deny" else c!"allow:" ++ t
  | _, _ => c!"deny"

/-! ## Markup -/

/-- Lower case hexadecimal digit. -/
def hexDigit (n : Nat) : Char := if n < 10 then Char.ofNat (48 + n) else Char.ofNat (87 + n)

/-- `%x` for a number below 256 (larger ones do not occur). -/
def hex2 (n : Nat) : Str := if n < 16 then [hexDigit n] else [hexDigit (n / 16), hexDigit (n % 16)]

/-- One character of `g_markup_escape_text` (GLib, gmarkup.c `append_escaped_text`). -/
def escapeChar (c : Char) : Str :=
  if c = '&' then c!"&amp;"
  else if c = '<' then c!"&lt;"
  else if c = '>' then c!"&gt;"
  else if c = '\'' then c!"&apos;"
  else if c = '"' then c!"&quot;"
  else
    let n := c.toNat
    if (1 ≤ n && n ≤ 8) || (11 ≤ n && n ≤ 12) || (14 ≤ n && n ≤ 31) || (127 ≤ n && n ≤ 132) || (134 ≤ n && n ≤ 159) then
      c!"&#x" ++ hex2 n ++ c!";"
    else [c]

/-- `GLib.markup_escape_text`. -/
def markupEscape (s : Str) : Str := s.flatMap escapeChar

/-- qrexec_policy_agent.py:561-574 `escape_and_format_rpc_text`. -/
def formatRpcText (service argument : Str) : Str :=
  let service := markupEscape service
  let argument := markupEscape argument
  let result := match splitOnce '.' service with
    | some (domain, name) => if name.isEmpty then c!"<b>" ++ service ++ c!"</b>" else domain ++ c!".<b>" ++ name ++ c!"</b>"
    | none => c!"<b>" ++ service ++ c!"</b>"
  if argument = c!"+" then result else result ++ argument

/-- qrexec_policy_agent.py:628-663 `notify`: the body of the notification. -/
def notifyBody (resolution service argument source target : Str) : Except Err Str :=
  let rpc := if argument = c!"+" then service else service ++ argument
  let mid := markupEscape rpc ++ c!"</b> "
  let ends := c!"from <b>" ++ markupEscape source ++ c!"</b> to <b>" ++ markupEscape target ++ c!"</b>"
  if resolution = c!"allow" then .ok (c!"Allowed <b>" ++ mid ++ ends)
  else if resolution = c!"deny" then .ok (c!"Denied <b>" ++ mid ++ ends)
  else if resolution = c!"fail" then .ok (c!"Failed to execute <b>" ++ mid ++ c!"(" ++ ends ++ c!")")
  else .error .assertion

end Qrexec
