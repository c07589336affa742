import Verif.Model.Policy

/-!
# Resolutions and the policy frontend (`qrexec-policy-exec`)
-/
namespace Qrexec

/-- `self.user or 'DEFAULT'`. -/
def userText (u : Option Str) : Str :=
  match u with
  | none => c!"DEFAULT"
  | some [] => c!"DEFAULT"
  | some u => u

/-- `f"{b}"` for a Python `bool`. -/
def pyBool (b : Bool) : Str := if b then c!"True" else c!"False"

/-- `if not target_info.get(key)`: a missing key, `None` and `""` are falsy. -/
def truthy (o : Option Str) : Option Str :=
  match o with
  | some (c :: cs) => some (c :: cs)
  | _ => none

/-- The optional last line `policy_source=` (parser.py:823-824, 857-858, 869-870). -/
def policySourceLine (req : Request) : List (Str × Str) :=
  if req.requestedSource.isEmpty then [] else [(c!"policy_source", req.source)]

/-- The RemoteVM case of `AllowResolution.execute` (parser.py:834-859); `d` is the entry of
the target. -/
def AllowRes.remoteFields (r : AllowRes) (d : Dom) : Except Err (List (Str × Str)) :=
  match truthy d.relayvm with
  | none => .error (.accessDenied true)
  | some relay => match truthy d.transportRpc with
    | none => .error (.accessDenied true)
    | some transport => do
      let rd ← r.request.info.lookup relay
      let u ← rd.getUuid
      return [ (c!"user", c!"DEFAULT"), (c!"result", c!"allow"), (c!"target", relay),
               (c!"target_uuid", c!"uuid:" ++ u), (c!"autostart", pyBool r.autostart),
               (c!"requested_target", r.request.target.str),
               (c!"service", transport ++ c!"+" ++ r.request.target.str ++ c!"+"
                  ++ r.request.service ++ r.request.argument) ]
             ++ policySourceLine r.request

/-- parser.py:776-871 `AllowResolution.execute`, as the list of `key=value` lines of the
answer. -/
def AllowRes.fields (r : AllowRes) : Except Err (List (Str × Str)) :=
  if r.request.source == r.target then .error (.accessDenied true)
  else if isDom0 r.target then
    .ok [ (c!"user", userText r.user), (c!"result", c!"allow"), (c!"target", c!"dom0"),
          (c!"autostart", pyBool r.autostart),
          (c!"requested_target", r.request.target.str) ]
  else if startsWith c!"@dispvm:" r.target then do
    let d ← r.request.info.lookup (r.target.drop 8)
    let u ← d.getUuid
    return [ (c!"user", userText r.user), (c!"result", c!"allow"), (c!"target", r.target),
             (c!"target_uuid", c!"@dispvm:uuid:" ++ u),
             (c!"autostart", pyBool r.autostart),
             (c!"requested_target", r.request.target.str) ] ++ policySourceLine r.request
  else do
    let d ← r.request.info.lookup r.target
    if d.cls == c!"RemoteVM" then r.remoteFields d
    else
      let u ← d.getUuid
      return [ (c!"user", userText r.user), (c!"result", c!"allow"), (c!"target", r.target),
               (c!"target_uuid", c!"uuid:" ++ u), (c!"autostart", pyBool r.autostart),
               (c!"requested_target", r.request.target.str) ] ++ policySourceLine r.request

/-- One line `key=value`. -/
def renderField (f : Str × Str) : Str := f.1 ++ '=' :: f.2

/-- `"\n".join(lines)`. -/
def renderFields (fs : List (Str × Str)) : Str := joinWith '\n' (fs.map renderField)

/-- parser.py:776-871 `AllowResolution.execute`. -/
def AllowRes.execute (r : AllowRes) : Except Err Str := do
  let fs ← r.fields
  return renderFields fs

/-- parser.py:762-774 `AllowResolution.from_ask_resolution`. -/
def AllowRes.fromAsk (a : AskRes) (target : Str) : Except Err AllowRes := do
  let target ← if startsWith c!"@dispvm:" target then
      (mkDispvmTemplate (target.drop 8)).map Token.str
    else .ok target
  return { rule := a.rule, request := a.request, user := a.user, target,
           autostart := a.autostart }

/-- parser.py:907-939 `AskResolution.handle_user_response`. -/
def AskRes.handleUserResponse (a : AskRes) (response : Bool) (target : Str) :
    Except Err AllowRes :=
  if !response then .error (.accessDenied a.rule.action.notify)
  else if !a.targetsForAsk.contains target then .error (.accessDenied true)
  else AllowRes.fromAsk a target

/-- What is sent to the GUI agent for `policy.Ask` (qrexec_policy_exec.py:93-100).  The
`icons` entry is not modelled. -/
structure AskParams where
  source : Str
  service : Str
  argument : Str
  targets : List Str
  defaultTarget : Str
  deriving DecidableEq, Repr

/-- Externally visible effects of handling a request, besides the answer. -/
inductive Event where
  /-- `policy.Notify` sent to `guivm` (qrexec_policy_exec.py:153-163) -/
  | notify (guivm : Str) (allowed : Bool) (service argument source target : Str)
  /-- `policy.Ask` sent to `guivm` (qrexec_policy_exec.py:102-106) -/
  | ask (guivm : Str) (params : AskParams)
  deriving DecidableEq, Repr

/-- `just_evaluate` and `assume_yes_for_ask` (qrexec_policy_exec.py:179-191
`prepare_resolution_types`; the allow resolution type is the default `LogAllowedResolution`,
no caller passes another one). -/
structure Mode where
  justEvaluate : Bool := false
  assumeYes : Bool := false
  deriving DecidableEq, Repr

/-- The GUI agent: what `call_socket_service(guivm, "policy.Ask", ...)` returns or raises. -/
abbrev Agent := Str → AskParams → Except Err Str

/-- Events so far and the result. -/
abbrev Run (α : Type) := List Event × Except Err α

/-- The GUI domain of the source in `NotifyAllowedResolution.execute`
(qrexec_policy_exec.py:131-136), `none` if unknown or falsy. -/
def lookupGui (info : Info) (source : Str) : Option Str :=
  match info.get? source with
  | some d => truthy d.guivm
  | none => none

/-- `JustEvaluateAllowResolution.execute` (qrexec_policy_exec.py:44-46), or
`LogAllowedResolution.execute` = log, `NotifyAllowedResolution.execute`
(qrexec_policy_exec.py:129-150), `AllowResolution.execute`.  `notify()` never raises
(qrexec_policy_exec.py:153-163). -/
def execAllow (mode : Mode) (r : AllowRes) : Run Str :=
  if mode.justEvaluate then ([], .ok c!"result=allow")
  else
    let ev := match lookupGui r.request.info r.request.source with
      | some g => if r.rule.action.notify then
          [Event.notify g true r.request.service r.request.argument r.request.source r.target]
        else []
      | none => []
    (ev, r.execute)

/-- `AssumeYesForAskResolution`, `JustEvaluateAskResolution` and `AgentAskResolution`
(qrexec_policy_exec.py:49-126), selected as in `prepare_resolution_types`. -/
def execAsk (mode : Mode) (agent : Agent) (a : AskRes) : Run Str :=
  if mode.assumeYes then
    match a.handleUserResponse true a.request.target.str with
    | .ok r => execAllow mode r
    | .error e => ([], .error e)
  else if mode.justEvaluate then ([], .ok c!"result=deny")
  else match a.request.info.get? a.request.source with
    | none => ([], .error .keyError)
    | some d => match truthy d.guivm with
      | none => ([], .error (.accessDenied a.rule.action.notify))
      | some g =>
        let params : AskParams :=
          { source := a.request.source, service := a.request.service,
            argument := a.request.argument, targets := a.targetsForAsk,
            defaultTarget := a.defaultTarget.getD [] }
        let ev := Event.ask g params
        match agent g params with
        | .error e => ([ev], .error e)
        | .ok resp =>
          if resp == c!"deny" then ([ev], .error (.accessDenied a.rule.action.notify))
          else if startsWith c!"allow:" resp then
            match a.handleUserResponse true (resp.drop 6) with
            | .ok r => let (evs, x) := execAllow mode r; (ev :: evs, x)
            | .error e => ([ev], .error e)
          else ([ev], .error (.accessDenied true))

/-- `resolution.execute()`. -/
def execResolution (mode : Mode) (agent : Agent) : Resolution → Run Str
  | .allow r => execAllow mode r
  | .ask a => execAsk mode agent a

/-- `service_and_arg` split at the first `+` (qrexec_policy_exec.py:370-374). -/
def splitServiceArg (s : Str) : Str × Str :=
  match splitOnce '+' s with
  | some (a, b) => (a, '+' :: b)
  | none => (s, c!"+")

/-- The `try` block of `handle_request` (qrexec_policy_exec.py:376-400). -/
def tryRequest (policy : Except Err (List Rule)) (mode : Mode) (agent : Agent)
    (service argument source target : Str) (info : Info) (requestedSource : Str) : Run Str :=
  match policy with
  | .error e => ([], .error e)
  | .ok rules => match mkRequest service argument source target info requestedSource with
    | .error e => ([], .error e)
    | .ok req => match evaluate rules req with
      | .error e => ([], .error e)
      | .ok res => execResolution mode agent res

/-- The end of the `except exc.AccessDenied` block (qrexec_policy_exec.py:404-419): notify the
GUI domain of `source` if asked to, answer `result=deny`.  `evs` are the events so far. -/
def onDenied (info : Info) (mode : Mode) (notify : Bool) (service argument source target : Str)
    (evs : List Event) : Run Str :=
  if notify && !mode.justEvaluate then
    match info.get? source with
    | none => (evs, .error .keyError)
    | some d => match truthy d.guivm with
      | some g => (evs ++ [Event.notify g false service argument source target],
          .ok c!"result=deny")
      | none => (evs, .ok c!"result=deny")
  else (evs, .ok c!"result=deny")

/-- qrexec_policy_exec.py:345-419 `handle_request`.  `sys = none` is a
`QubesMgmtException` from qubesd; `policy` is what `policy_cache.get_policy()` returns or
raises. -/
def handleRequest (sys : Option Info) (policy : Except Err (List Rule)) (agent : Agent)
    (mode : Mode) (source target serviceAndArg requestedSource : Str) : Run Str :=
  match sys with
  | none => ([], .ok c!"result=deny")
  | some info =>
    let (service, argument) := splitServiceArg serviceAndArg
    let (evs, res) := tryRequest policy mode agent service argument source target info
      requestedSource
    match res with
    | .ok s => (evs, .ok s)
    | .error .policySyntax => (evs, .ok c!"result=deny")
    | .error e =>
      if e.isAccessDenied then onDenied info mode e.notify service argument source target evs
      else (evs, .error e)

end Qrexec
