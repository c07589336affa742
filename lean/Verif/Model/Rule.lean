import Verif.Model.Token

/-!
# Rules: actions and parsing of one policy line
-/
namespace Qrexec

/-- The action objects `Deny`, `Allow`, `Ask` (parser.py:1112-1116, 1142-1164, 1235-1256): the
attributes set by their constructors. -/
inductive Action where
  | deny (notify : Bool)
  | allow (target : Option Token) (user : Option Str) (notify autostart : Bool)
  | ask (target default : Option Token) (user : Option Str) (notify autostart : Bool)
  deriving DecidableEq, Repr

/-- `rule.action.notify` (parser.py:728). -/
def Action.notify : Action → Bool
  | .deny n => n
  | .allow _ _ n _ => n
  | .ask _ _ _ n _ => n

/-- `isinstance(rule.action, Action.deny.value)` (parser.py:1897). -/
def Action.isDeny : Action → Bool
  | .deny _ => true
  | _ => false

/-- A `Rule` (parser.py:1354-1458).  `service`/`argument` are `none` for `*`.  The line
number is not modelled (it occurs only in messages). -/
structure Rule where
  service : Option Str
  argument : Option Str
  source : Token
  target : Token
  action : Action
  filepath : List Str := []
  deriving DecidableEq, Repr

/-- `RPCNAME_ALLOWED_CHARSET` (qrexec/__init__.py:50). -/
def rpcNameChar (c : Char) : Bool :=
  ('A' ≤ c && c ≤ 'Z') || ('a' ≤ c && c ≤ 'z') || ('0' ≤ c && c ≤ '9') ||
  c == '+' || c == '-' || c == '.' || c == '_'

/-- `not get_invalid_characters(s, disallowed="+")` for a service, parser.py:124-133, 168. -/
def validService (s : Str) : Bool := s.all fun c => rpcNameChar c && c != '+'

/-- parser.py:136-203 `validate_service_and_argument`, with `None` for `*`.  (In
`handle_include_service` its result is fed to it a second time, hence the `Option`
arguments.) -/
def validateServiceAndArgument (service argument : Option Str) :
    Except Err (Option Str × Option Str) := do
  let service := if service == some c!"*" then none else service
  require (match service with | some s => validService s | none => true) .policySyntax
  let argument := if argument == some c!"*" then none else argument
  require (match argument with | some a => a.all rpcNameChar | none => true) .policySyntax
  require (match argument with | some a => startsWith c!"+" a | none => true) .policySyntax
  require (argument.isNone || service.isSome) .policySyntax
  return (service, argument)

/-- The `for param in params` loop of `Rule.__init__` (parser.py:1407-1421): the `kwds`
dict, in reverse order of appearance. -/
def parseParams : List Str → List (Str × Str) → Except Err (List (Str × Str))
  | [], kwds => .ok kwds
  | p :: ps, kwds =>
    match splitOnce '=' p with
    | none => .error .policySyntax
    | some (k, v) =>
      if (kwds.map Prod.fst).contains k then .error .policySyntax
      else parseParams ps ((k, v) :: kwds)

/-- `kwds.get(key)`. -/
def kwGet : List (Str × Str) → Str → Option Str
  | [], _ => none
  | (k, v) :: rest, key => if k = key then some v else kwGet rest key

/-- A boolean parameter (parser.py:1423-1435): `yes`/`no`, anything else is an error. -/
def kwBool (kwds : List (Str × Str)) (key : Str) : Except Err (Option Bool) :=
  match kwGet kwds key with
  | none => .ok none
  | some v =>
    if v == c!"yes" then .ok (some true)
    else if v == c!"no" then .ok (some false)
    else .error .policySyntax

/-- `Redirect(target, ...)` for an optional parameter (parser.py:405-416). -/
def parseRedirect : Option Str → Except Err (Option Token)
  | none => .ok none
  | some s => do
    let t ← parseToken .redirect s
    return some t

/-- `Action[action]` (parser.py:1345-1351, 1400-1405) and the keyword parameters of the
constructor found (parser.py:1114, 1149-1157, 1237-1246). -/
def actionParams (action : Str) : Except Err (List Str) :=
  if action == c!"allow" then .ok [c!"target", c!"user", c!"notify", c!"autostart"]
  else if action == c!"deny" then .ok [c!"notify"]
  else if action == c!"ask" then
    .ok [c!"target", c!"default_target", c!"user", c!"notify", c!"autostart"]
  else .error .policySyntax

/-- The second half of `Rule.__init__` (parser.py:1400-1446): look up the action and call
its constructor with the parameters as keyword arguments; a keyword the constructor does
not have is a `TypeError`, turned into `PolicySyntaxError`. -/
def parseAction (action : Str) (params : List Str) : Except Err Action := do
  let allowed ← actionParams action
  let kwds ← parseParams params []
  let notify ← kwBool kwds c!"notify"
  let autostart ← kwBool kwds c!"autostart"
  require ((kwds.map Prod.fst).all (fun k => allowed.contains k)) .policySyntax
  let target ← parseRedirect (kwGet kwds c!"target")
  let dflt ← parseRedirect (kwGet kwds c!"default_target")
  let user := kwGet kwds c!"user"
  return if action == c!"deny" then .deny (notify.getD true)
    else if action == c!"allow" then
      .allow target user (notify.getD false) (autostart.getD true)
    else .ask target dflt user (notify.getD false) (autostart.getD true)

/-- `isinstance(self.action, Allow) and self.action.target is None` (parser.py:1450-1451). -/
def allowWithoutTarget : Action → Bool
  | .allow none _ _ _ => true
  | _ => false

/-- parser.py:1365-1458 `Rule.__init__`. -/
def mkRule (service argument : Option Str) (source target action : Str) (params : List Str)
    (filepath : List Str) : Except Err Rule := do
  let sa ← validateServiceAndArgument service argument
  let source ← parseToken .source source
  let target ← parseToken .target target
  let action ← parseAction action params
  require (!(target == .default && allowWithoutTarget action)) .policySyntax
  return { service := sa.1, argument := sa.2, source, target, action, filepath }

/-- parser.py:1482-1516 `Rule.from_line`. -/
def ruleFromLine (line : Str) (filepath : List Str) : Except Err Rule :=
  match splitWs line with
  | service :: argument :: source :: target :: action :: params =>
    mkRule (some service) (some argument) source target action params filepath
  | _ => .error .policySyntax

/-- parser.py:1518-1562 `Rule.from_line_service`. -/
def ruleFromLineService (service argument : Option Str) (line : Str) (filepath : List Str) :
    Except Err Rule :=
  match splitWs line with
  | source :: target :: ap =>
    match (ap.map (splitOn ',')).flatten with
    | action :: params => mkRule service argument source target action params filepath
    | [] => .error .policySyntax
  | _ => .error .policySyntax

end Qrexec
