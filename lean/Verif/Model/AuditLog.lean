import Verif.Model.Exec

/-!
# The log of decisions of `handle_request`

`Model/Exec.lean` models the answer and the calls to the GUI agent; here the same code is
modelled together with what it writes to the logger `policy`.  The two are proved to agree
(`Props/AuditLog.lean`, `logged_forget`).
-/
namespace Qrexec

/-- One record given to the logger `policy` while a request is handled.  The records of
`notify()` when the GUI agent fails (qrexec_policy_exec.py:159-163) and of the `user=` of a
RemoteVM (parser.py:818-822) are not modelled: they decide nothing. -/
inductive LogEntry where
  /-- qrexec_policy_exec.py:67-72 (error) -/
  | noGui (service source : Str)
  /-- qrexec_policy_exec.py:118-123 (error) -/
  | badReply (service reply : Str)
  /-- qrexec_policy_exec.py:168-174 (info) -/
  | allowed (service argument source requested target : Str)
  /-- qrexec_policy_exec.py:360-366 (error) -/
  | noInfo (call source target : Str)
  /-- qrexec_policy_exec.py:399-401 (error) -/
  | badPolicy (call source target : Str)
  /-- qrexec_policy_exec.py:402-403 (info); `offered` is the text that
  `handle_user_response` puts into the message when it was not one of the offered targets
  (parser.py:934-935), `none` for every other message -/
  | denied (call source target : Str) (offered : Option Str)
  deriving DecidableEq, Repr

/-- `log_prefix`: qrexec_policy_exec.py:168-171 and 360. -/
def logPrefix (call source target : Str) : Str :=
  c!"qrexec: " ++ call ++ c!": " ++ source ++ c!" -> " ++ target ++ c!":"

/-- The text of a record.  `why` is the text of the exception where it is not modelled. -/
def LogEntry.text (why : Str) : LogEntry → Str
  | .noGui s src => s ++ c!" not allowed from " ++ src ++
      c!": the resolution was \"ask\", but source domain has no GuiVM"
  | .badReply s r => c!"invalid ask response for " ++ s ++ c!": " ++ r
  | .allowed s a src r t => logPrefix (s ++ a) src r ++ c!" allowed to " ++ t
  | .noInfo s src t => logPrefix s src t ++ c!" error getting system info: " ++ why
  | .badPolicy s src t => logPrefix s src t ++ c!" error loading policy: " ++ why
  | .denied s src t (some o) => logPrefix s src t ++ c!" denied: " ++ c!"target " ++ o ++
      c!" is not a valid choice"
  | .denied s src t none => logPrefix s src t ++ c!" denied: " ++ why

/-- What a step logged, the offered text of a failed `handle_user_response`, and its outcome. -/
structure Logged where
  log : List LogEntry := []
  offered : Option Str := none
  run : Run Str

/-- `LogAllowedResolution.execute` (qrexec_policy_exec.py:166-176): the record is written before
the checks of `AllowResolution.execute`.  `JustEvaluateAllowResolution` (44-46) logs nothing. -/
def execAllowL (mode : Mode) (r : AllowRes) : Logged :=
  if mode.justEvaluate then { run := execAllow mode r }
  else { log := [.allowed r.request.service r.request.argument r.request.source
                  r.request.target.str r.target], run := execAllow mode r }

/-- The message of `handle_user_response(True, target)` names `target` if it was not offered
(parser.py:934-935). -/
def offeredOf (a : AskRes) (target : Str) : Option Str :=
  if a.targetsForAsk.contains target then none else some target

/-- qrexec_policy_exec.py:49-126, see `execAsk`. -/
def execAskL (mode : Mode) (agent : Agent) (a : AskRes) : Logged :=
  if mode.assumeYes then
    match a.handleUserResponse true a.request.target.str with
    | .ok r => execAllowL mode r
    | .error e => { offered := offeredOf a a.request.target.str, run := ([], .error e) }
  else if mode.justEvaluate then { run := ([], .ok c!"result=deny") }
  else match a.request.info.get? a.request.source with
    | none => { run := ([], .error .keyError) }
    | some d => match truthy d.guivm with
      | none => { log := [.noGui a.request.service a.request.source],
                  run := ([], .error (.accessDenied a.rule.action.notify)) }
      | some g =>
        let params : AskParams :=
          { source := a.request.source, service := a.request.service,
            argument := a.request.argument, targets := a.targetsForAsk,
            defaultTarget := a.defaultTarget.getD [] }
        let ev := Event.ask g params
        match agent g params with
        | .error e => { run := ([ev], .error e) }
        | .ok resp =>
          if resp == c!"deny" then { run := ([ev], .error (.accessDenied a.rule.action.notify)) }
          else if startsWith c!"allow:" resp then
            match a.handleUserResponse true (resp.drop 6) with
            | .ok r => let l := execAllowL mode r
                       { log := l.log, run := (ev :: l.run.1, l.run.2) }
            | .error e => { offered := offeredOf a (resp.drop 6), run := ([ev], .error e) }
          else { log := [.badReply a.request.service resp],
                 run := ([ev], .error (.accessDenied true)) }

/-- `resolution.execute()`. -/
def execResolutionL (mode : Mode) (agent : Agent) : Resolution → Logged
  | .allow r => execAllowL mode r
  | .ask a => execAskL mode agent a

/-- The `try` block of `handle_request` (qrexec_policy_exec.py:376-397). -/
def tryRequestL (policy : Except Err (List Rule)) (mode : Mode) (agent : Agent)
    (service argument source target : Str) (info : Info) (requestedSource : Str) : Logged :=
  match policy with
  | .error e => { run := ([], .error e) }
  | .ok rules => match mkRequest service argument source target info requestedSource with
    | .error e => { run := ([], .error e) }
    | .ok req => match evaluate rules req with
      | .error e => { run := ([], .error e) }
      | .ok res => execResolutionL mode agent res

/-- qrexec_policy_exec.py:345-419 `handle_request`, with its log: 365, 400, 403. -/
def handleRequestL (sys : Option Info) (policy : Except Err (List Rule)) (agent : Agent)
    (mode : Mode) (source target serviceAndArg requestedSource : Str) :
    List LogEntry × Run Str :=
  match sys with
  | none => ([.noInfo serviceAndArg source target], ([], .ok c!"result=deny"))
  | some info =>
    let (service, argument) := splitServiceArg serviceAndArg
    let l := tryRequestL policy mode agent service argument source target info requestedSource
    match l.run.2 with
    | .ok s => (l.log, (l.run.1, .ok s))
    | .error .policySyntax =>
      (l.log ++ [.badPolicy serviceAndArg source target], (l.run.1, .ok c!"result=deny"))
    | .error e =>
      if e.isAccessDenied then
        (l.log ++ [.denied serviceAndArg source target l.offered],
          onDenied info mode e.notify service argument source target l.run.1)
      else (l.log, (l.run.1, .error e))

end Qrexec
